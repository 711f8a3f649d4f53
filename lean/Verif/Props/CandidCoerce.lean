import Verif.Props.CandidIdle
import Verif.Proof.CandidCoerceRest
import Verif.Props.CandidMeta
import Verif.Props.CandidCalls
import Verif.Props.Life
/-!
# Requests are read by coercion

C112.
-/
namespace CyclesLedger

open Candid Spec.Candid

theorem decode_coercing {A : Type} {d : Des A} {e : Candid.Ty} {f : A → Val} (h : Coercing d e f)
    {bs : Bytes} {a : A} : decode d bs = some a ↔ ReadsAs e bs (f a) := by
  unfold decode ReadsAs
  cases hr : readMessage bs with
  | none =>
    simp only [reduceCtorEq, false_iff]
    rintro (⟨h, _⟩ | ⟨t, v, more, h, _⟩) <;> rw [readMessage_isMessage h] at hr <;> cases hr
  | some args =>
    have hm := (readMessage_iff _ _).mp hr
    cases args with
    | nil =>
      simp only [h.miss]
      refine ⟨fun g => .inl ⟨hm, g⟩, ?_⟩
      rintro (⟨_, g⟩ | ⟨t, v, more, g, _⟩)
      · exact g
      · cases C102_unambiguous hm g
    | cons p more =>
      obtain ⟨t, v⟩ := p
      have hs := sorted_first hm
      have ht := typed_first hm
      simp only
      constructor
      · intro g
        split at g
        · rename_i ha
          have hb := (h.sub t hs).mp ha
          exact .inr ⟨t, v, more, hm, hb, (h.get t v a hs ht hb).mp g⟩
        · cases g
      · rintro (⟨g, _⟩ | ⟨t', v', more', g, hb, hc⟩)
        · cases C102_unambiguous hm g
        · cases C102_unambiguous hm g
          rw [if_pos ((h.sub t hs).mpr hb)]
          exact (h.get t v a hs ht hb).mpr hc

/-- **C112**: the arguments of the update calls are what the bytes say, read at the types of
`cycles-ledger.did`. -/
theorem C112_updates (bs : Bytes) :
    (∀ a, decode desDeposit bs = some a ↔ ReadsAs Did.depositArgs bs (Mean.depositArgs a)) ∧
    (∀ a, decode desTransfer bs = some a ↔ ReadsAs Did.transferArgs bs (Mean.transferArgs a)) ∧
    (∀ a, decode desTransferFrom bs = some a ↔
      ReadsAs Did.transferFromArgs bs (Mean.transferFromArgs a)) ∧
    (∀ a, decode desApprove bs = some a ↔ ReadsAs Did.approveArgs bs (Mean.approveArgs a)) ∧
    (∀ a, decode desWithdraw bs = some a ↔ ReadsAs Did.withdrawArgs bs (Mean.withdrawArgs a)) ∧
    (∀ a, decode desWithdrawFrom bs = some a ↔
      ReadsAs Did.withdrawFromArgs bs (Mean.withdrawFromArgs a)) ∧
    (∀ a, decode desCreate bs = some a ↔ ReadsAs Did.createArgs bs (Mean.createArgs a)) ∧
    (∀ a, decode desCreateFrom bs = some a ↔
      ReadsAs Did.createFromArgs bs (Mean.createFromArgs a)) :=
  ⟨fun _ => decode_coercing coercing_deposit, fun _ => decode_coercing coercing_transfer,
    fun _ => decode_coercing coercing_transferFrom, fun _ => decode_coercing coercing_approve,
    fun _ => decode_coercing coercing_withdraw, fun _ => decode_coercing coercing_withdrawFrom,
    fun _ => decode_coercing coercing_create, fun _ => decode_coercing coercing_createFrom⟩

/-- **C112**: so are those of the queries. -/
theorem C112_queries (bs : Bytes) :
    (∀ a, decode desAccount bs = some a ↔ ReadsAs Did.account bs (Mean.account a)) ∧
    (∀ a, decode desAllowance bs = some a ↔ ReadsAs Did.allowanceArgs bs (Mean.allowanceArgs a)) ∧
    (∀ a, decode desGetAllowances bs = some a ↔
      ReadsAs Did.getAllowancesArgs bs (Mean.getAllowancesArgs a)) ∧
    (∀ a, decode desGetBlocks bs = some a ↔ ReadsAs Did.getBlocksArgs bs (Mean.getBlocksArgs a)) ∧
    (∀ a, decode desArchives bs = some a ↔
      ReadsAs Did.getArchivesArgs bs (Mean.getArchivesArgs a)) ∧
    (∀ a, decode desHttp bs = some a ↔ ReadsAs Did.httpRequest bs (Mean.httpRequest a)) :=
  ⟨fun _ => decode_coercing coercing_account, fun _ => decode_coercing coercing_allowance,
    fun _ => decode_coercing coercing_getAllowances, fun _ => decode_coercing coercing_getBlocks,
    fun _ => decode_coercing coercing_archives, fun _ => decode_coercing coercing_http⟩

/-- **C112**: and those of an installation and of an upgrade. -/
theorem C112_lifecycle (bs : Bytes) :
    (∀ a, decode desLedger bs = some a ↔ ReadsAs Did.ledgerArgs bs (Mean.ledgerArgs a)) ∧
    (∀ o, decode (desOpt desLedger) bs = some o ↔
      ReadsAs (.opt Did.ledgerArgs) bs (Mean.opt Mean.ledgerArgs o)) :=
  ⟨fun _ => decode_coercing coercing_ledger,
    fun _ => decode_coercing (coercing_opt coercing_ledger)⟩

theorem msg_iff (c : Call) (m : Msg) : c.msg = some m ↔
    ∃ T v, argument c.method = some T ∧ ReadsAs T c.bytes v ∧
      Meant c.method c.caller c.cycles c.sync v m := by
  obtain ⟨method, caller, cycles, bytes, sync⟩ := c
  obtain ⟨u0, u1, u2, u3, u4, u5, u6, u7⟩ := C112_updates bytes
  constructor
  · intro h
    unfold Call.msg at h
    simp only at h ⊢
    repeat' split at h
    all_goals try (cases h; done)
    all_goals
      rename_i hm
      subst hm
      obtain ⟨a, ha, rfl⟩ := Option.map_eq_some_iff.mp h
      simp only [u0, u1, u2, u3, u4, u5, u6, u7] at ha
      exact ⟨_, _, rfl, ha, by simp [Meant]⟩
  · rintro ⟨T, v, hT, hv, hm⟩
    simp only at hT hv hm
    cases m <;> simp only [Meant] at hm
    all_goals first
      | (obtain ⟨rfl, rfl, rfl, rfl⟩ := hm)
      | (obtain ⟨rfl, rfl, rfl⟩ := hm)
    all_goals
      cases hT
      simp only [← u0, ← u1, ← u2, ← u3, ← u4, ← u5, ← u6, ← u7] at hv
      simp [Call.msg, hv]

/-- **C112**: a call does what its bytes ask for, read at the type of its method; a call that asks for
nothing traps. -/
theorem C112_calls [Crypto] (y : Sys) (dt : Nat) (c : Call) :
    (∀ T v m, argument c.method = some T → ReadsAs T c.bytes v →
      Meant c.method c.caller c.cycles c.sync v m → y.receive dt c = y.step ⟨dt, m⟩) ∧
    ((¬∃ T v m, argument c.method = some T ∧ ReadsAs T c.bytes v ∧
      Meant c.method c.caller c.cycles c.sync v m) → y.receive dt c = (y.tick dt, .trapped)) := by
  constructor
  · intro T v m h1 h2 h3
    simp only [Sys.receive, (msg_iff c m).mpr ⟨T, v, h1, h2, h3⟩]
  · intro h
    cases hc : c.msg with
    | none => simp only [Sys.receive, hc]
    | some m =>
      obtain ⟨T, v, h'⟩ := (msg_iff c m).mp hc
      exact absurd ⟨T, v, m, h'⟩ h

/-- **C112**: the bytes of a call ask for one thing only. -/
theorem C112_one (c : Call) {T T' : Candid.Ty} {v v' : Val} {m m' : Msg}
    (h : argument c.method = some T) (hr : ReadsAs T c.bytes v)
    (hm : Meant c.method c.caller c.cycles c.sync v m)
    (h' : argument c.method = some T') (hr' : ReadsAs T' c.bytes v')
    (hm' : Meant c.method c.caller c.cycles c.sync v' m') : m = m' := by
  have h1 := (msg_iff c m).mpr ⟨T, v, h, hr, hm⟩
  rw [(msg_iff c m').mpr ⟨T', v', h', hr', hm'⟩] at h1
  exact (Option.some.inj h1).symm

/-- **C112**: the canister is installed with the configuration the bytes say, and only with one; an
upgrade does what the bytes say, and traps if they say nothing that the type allows. -/
theorem C112_install [Crypto] (bs : Bytes) :
    (∀ now cycles y, Sys.install bs now cycles = some y ↔ ∃ config,
      ReadsAs Did.ledgerArgs bs (Mean.ledgerArgs (.init config)) ∧
      Sys.init config now cycles = some y) ∧
    (∀ (y : Sys) dt o, ReadsAs (.opt Did.ledgerArgs) bs (Mean.opt Mean.ledgerArgs o) →
      y.upgradeWith dt bs = y.step ⟨dt, .upgrade (upgradeArg o)⟩) ∧
    ((¬∃ o, ReadsAs (.opt Did.ledgerArgs) bs (Mean.opt Mean.ledgerArgs o)) →
      ∀ (y : Sys) dt, y.upgradeWith dt bs = (y.tick dt, .trapped)) := by
  obtain ⟨hl, hu⟩ := C112_lifecycle bs
  refine ⟨fun now cycles y => ?_, fun y dt o h => ?_, fun h y dt => ?_⟩
  · simp only [← hl]
    unfold Sys.install
    constructor
    · intro g
      split at g
      · rename_i c hc; exact ⟨c, hc, g⟩
      · cases g
      · cases g
    · rintro ⟨c, hc, g⟩
      simp only [hc, g]
  · simp only [Sys.upgradeWith, (hu o).mpr h]
  · cases e : decode (desOpt desLedger) bs with
    | none => simp only [Sys.upgradeWith, e]
    | some o => exact absurd ⟨o, (hu o).mp e⟩ h

/-- **C112**: so are the replies of the CMC; what cannot be read is a failed call. -/
theorem C112_cmc (bs : Bytes) :
    (∀ r v, ReadsAs Did.cmcReply bs v → CmcSays r v → cmcOutcome (.reply bs) = r) ∧
    ((¬∃ r v, ReadsAs Did.cmcReply bs v ∧ CmcSays r v) →
      cmcOutcome (.reply bs) = .callError .candidDecodeFailed) := by
  have key := fun a => decode_coercing coercing_cmcReply (bs := bs) (a := a)
  constructor
  · intro r v hv hr
    cases r with
    | created p =>
      simp only [CmcSays] at hr; subst hr
      have := (key (.ok p)).mpr hv
      simp only [cmcOutcome, decode_drop, this, Option.map_some, CmcReplyWith.drop]
    | refunded n =>
      obtain ⟨hn, why, rfl⟩ := hr
      have := (key (.err (.refunded (n, why)))).mpr (by
        simp only [meanCmcReply, meanCmcError, meanRefunded, if_pos hn]; exact hv)
      simp only [cmcOutcome, decode_drop, this, Option.map_some, CmcReplyWith.drop,
        CmcErrorWith.drop]
    | refundFailed =>
      obtain ⟨why, why', rfl⟩ := hr
      have := (key (.err (.refundFailed (why, why')))).mpr hv
      simp only [cmcOutcome, decode_drop, this, Option.map_some, CmcReplyWith.drop,
        CmcErrorWith.drop]
    | callError e => exact hr.elim
  · intro h
    cases e : decode desCmcReplyWith bs with
    | none => simp only [cmcOutcome, decode_drop, e, Option.map_none]
    | some a =>
      exfalso
      have hv := (key a).mp e
      cases a with
      | ok p => exact h ⟨.created p, _, hv, rfl⟩
      | err x =>
        cases x with
        | refunded r =>
          by_cases hn : r.1 < 2 ^ 128
          · simp only [meanCmcReply, meanCmcError, meanRefunded, if_pos hn] at hv
            exact h ⟨.refunded r.1, _, hv, hn, r.2, rfl⟩
          · exact hn (refunded_bound e)
        | refundFailed r => exact h ⟨.refundFailed, _, hv, r.1, r.2, rfl⟩

deriving instance DecidableEq for CmcErrorWith, CmcReplyWith

/-- The CMC replies with a canister, in a type that has no errors; then with an error that is unknown
to the ledger. -/
example : (∃ v, ReadsAs Did.cmcReply okAnswer v ∧ CmcSays (.created ⟨[7, 7], by decide⟩) v) ∧
    ¬∃ r v, ReadsAs Did.cmcReply busy v ∧ CmcSays r v := by
  refine ⟨⟨_, (decode_coercing coercing_cmcReply (a := .ok ⟨[7, 7], by decide⟩)).mp ?_, rfl⟩, ?_⟩
  · decide +kernel
  · rintro ⟨r, v, hv, hr⟩
    have h := (C112_cmc busy).1 r v hv hr
    rw [show cmcOutcome (.reply busy) = .callError .candidDecodeFailed by decide +kernel] at h
    subst h
    exact hr

/-- The transfer of 5 with a note and an odd time is a transfer of 5 without either. -/
example : ReadsAs Did.transferArgs chatty
    (Mean.transferArgs ⟨none, ⟨⟨[4], by decide⟩, none⟩, 5, none, none, none⟩) :=
  ((C112_updates chatty).2.1 _).mp (by decide +kernel)

deriving instance DecidableEq for ChangeIndexId, UpgradeArgs, LedgerArgs

/-- An installation with one balance, and an upgrade to another limit without `opt` around it. -/
example : ReadsAs Did.ledgerArgs anInit (Mean.ledgerArgs (.init ⟨50, none,
    some [(⟨⟨[1], by decide⟩, none⟩, 1000000000)]⟩)) ∧
    ReadsAs (.opt Did.ledgerArgs) anUpgrade
      (Mean.opt Mean.ledgerArgs (some (.upgrade (some ⟨some 7, none⟩)))) :=
  ⟨((C112_lifecycle anInit).1 _).mp (by decide +kernel),
    ((C112_lifecycle anUpgrade).2 _).mp (by decide +kernel)⟩

/-- An upgrade without an argument. -/
example : ReadsAs (.opt Did.ledgerArgs) [68, 73, 68, 76, 0, 0] .none :=
  .inl ⟨(readMessage_iff _ _).mp rfl, rfl⟩

/-- No transfer can be read from a transfer without an amount. -/
example : ¬∃ a, ReadsAs Did.transferArgs [68, 73, 68, 76, 2, 108, 1, 179, 176, 218, 195, 3, 104, 108, 1,
    251, 202, 1, 0, 1, 1, 1, 1, 4] (Mean.transferArgs a) := by
  rintro ⟨a, h⟩
  rw [← (C112_updates _).2.1 a] at h
  have : decode desTransfer [68, 73, 68, 76, 2, 108, 1, 179, 176, 218, 195, 3, 104, 108, 1,
    251, 202, 1, 0, 1, 1, 1, 1, 4] = none := by decide +kernel
  rw [this] at h
  cases h

end CyclesLedger
