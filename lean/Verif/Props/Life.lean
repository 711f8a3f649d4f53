import Verif.Model.Life
import Verif.Proof.CandidLife
import Verif.Props.CandidMeta
import Verif.Props.CandidCalls
import Verif.Props.Install
import Verif.Props.Upgrade
/-!
# The life of the ledger in bytes

C108.
-/
namespace CyclesLedger

open Candid Spec.Candid

theorem take_run [Crypto] (y : Sys) (dt : Nat) (i : Input) : ∃ m, (y.take dt i).1 = (y.step ⟨dt, m⟩).1 := by
  cases i with
  | call c =>
    simp only [Sys.take, Sys.receive]
    cases c.msg with
    | none => exact ⟨_, (tick_step y dt).symm⟩
    | some m => exact ⟨m, rfl⟩
  | response i r refund =>
    simp only [Sys.take, Sys.respond]
    split
    · exact ⟨_, (tick_step y dt).symm⟩
    · split <;> exact ⟨_, rfl⟩
  | lost i => exact ⟨_, rfl⟩
  | upgrade bs =>
    simp only [Sys.take, Sys.upgradeWith]
    split
    · exact ⟨_, rfl⟩
    · exact ⟨_, (tick_step y dt).symm⟩

theorem live_run [Crypto] (l : List (Nat × Input)) (y : Sys) :
    ∃ es : List Event, es.map Event.dt = l.map Prod.fst ∧ y.live l = y.run es := by
  induction l generalizing y with
  | nil => exact ⟨[], rfl, rfl⟩
  | cons a l ih =>
    obtain ⟨dt, i⟩ := a
    obtain ⟨m, hm⟩ := take_run y dt i
    obtain ⟨es, h1, h2⟩ := ih (y.take dt i).1
    refine ⟨⟨dt, m⟩ :: es, by simp [h1], ?_⟩
    simp only [Sys.live, Sys.run]
    rw [← hm]
    exact h2

theorem install_init [Crypto] {bytes : Bytes} {now cycles : Nat} {y : Sys}
    (h : Sys.install bytes now cycles = some y) :
    ∃ c, decode desLedger bytes = some (.init c) ∧ Sys.init c now cycles = some y := by
  unfold Sys.install at h
  split at h
  · rename_i c hc; exact ⟨c, hc, h⟩
  · cases h
  · cases h

/-- **C108**: whatever bytes the canister is installed with and whatever bytes reach it later, as
calls, as responses or as arguments of upgrades: if it is installed at all, its state is one that typed
messages lead to, one for each thing that reached it.  So what is proved about those holds; in
particular the books are right, and nothing is ever removed from the log. -/
theorem C108_life [Crypto] {bytes : Bytes} {now cycles : Nat} {y0 : Sys}
    (h0 : Sys.install bytes now cycles = some y0) (l more : List (Nat × Input)) :
    (∃ config es, Sys.init config now cycles = some y0 ∧ es.map Event.dt = l.map Prod.fst ∧
      y0.live l = y0.run es) ∧
    Reachable (y0.live l) ∧
    (∀ a, (icrc1BalanceOf (y0.live l).ledger a : Int) =
      Spec.balance (y0.live l).ledger.blocks (Spec.idOf a)) ∧
    (icrc1TotalSupply (y0.live l).ledger : Int) = Spec.supply (y0.live l).ledger.blocks ∧
    (y0.live l).ledger.blocks <+: ((y0.live l).live more).ledger.blocks := by
  obtain ⟨c, _, hi⟩ := install_init h0
  obtain ⟨es, h1, h2⟩ := live_run l y0
  have hr : Reachable (y0.live l) := ⟨c, now, cycles, y0, es, hi, h2⟩
  refine ⟨⟨c, es, hi, h1, h2⟩, hr, fun a => C02_balances_replay hr a, C02_supply_replay hr, ?_⟩
  obtain ⟨es', _, h3⟩ := live_run more (y0.live l)
  rw [h3]
  exact C30_append_only hr es'

/-- The endpoint that a message is a call of. -/
def Spec.Candid.endpoint : Msg → String
  | .deposit .. => "deposit"
  | .transfer .. => "icrc1_transfer"
  | .transferFrom .. => "icrc2_transfer_from"
  | .approve .. => "icrc2_approve"
  | .withdraw .. => "withdraw"
  | .withdrawFrom .. => "withdraw_from"
  | .createCanister .. => "create_canister"
  | .createCanisterFrom .. => "create_canister_from"
  | _ => ""

/-- What the answer to a call of a given kind is taken for. -/
def Spec.Candid.TakenFor (r : Response) (refund : Nat) : CallKind → Answer → Prop
  | .withdraw, a | .withdrawFrom, a => ∃ o, a = .depositCycles o ∧
      (∀ code, r = .reject code → o = some (.rejected code)) ∧ (∀ bs, r = .reply bs → o = none)
  | .createCanister, a | .createCanisterFrom, a => ∃ o, a = .cmc o refund ∧
      (∀ code, r = .reject code → o = .callError (.rejected code)) ∧
      ∀ bs, r = .reply bs → ∀ t v more x, IsMessage bs ((t, v) :: more) → wCmcReply x t v →
        o = outcome x

/-- The message that an input is taken for, if any: a call is one of the same caller to the same
endpoint, and the one that is written; a response is a callback of the call it responds to, if there
is one; and so on. -/
def Spec.Candid.Carried (y : Sys) : Input → Option Msg → Prop
  | .call c, o => (∀ m, o = some m → Spec.sender m = some c.caller ∧ endpoint m = c.method) ∧
      ∀ t v more m, IsMessage c.bytes ((t, v) :: more) →
        Asks c.method c.caller c.cycles c.sync t v m → o = some m
  | .response i r refund, o => (∀ q, y.pending[i]? = some q →
        ∃ a, o = some (.callback i a) ∧ TakenFor r refund q.kind a) ∧
      (y.pending.length ≤ i → o = none)
  | .lost i, o => o = some (.lostCallback i)
  | .upgrade _, o => ∀ m, o = some m → ∃ a, m = .upgrade a

theorem msg_sender (c : Call) (m : Msg) (h : c.msg = some m) :
    Spec.sender m = some c.caller ∧ endpoint m = c.method := by
  unfold Call.msg at h
  repeat' (split at h)
  all_goals first
    | (cases h; done)
    | (obtain ⟨a, _, rfl⟩ := Option.map_eq_some_iff.mp h
       exact ⟨rfl, by simp only [endpoint]; exact (by assumption : c.method = _).symm⟩)

/-- **C108**: anything that arrives is taken for the message that it says, and then this message is
executed; or it is taken for none, and then nothing happens but that time passes. -/
theorem C108_input [Crypto] (y : Sys) (dt : Nat) (i : Input) : ∃ o, Carried y i o ∧
    (∀ m, o = some m → y.take dt i = y.step ⟨dt, m⟩) ∧
    (o = none → (y.take dt i).1 = y.tick dt ∧
      ((y.take dt i).2 = .trapped ∨ (y.take dt i).2 = .silent)) := by
  cases i with
  | call c =>
    refine ⟨c.msg, ⟨msg_sender c, fun t v more m hb ha => msg_of_asks hb ha⟩, fun m h => ?_,
      fun h => ?_⟩
    · simp only [Sys.take, Sys.receive, h]
    · simp only [Sys.take, Sys.receive, h]
      exact ⟨trivial, .inl trivial⟩
  | response i r refund =>
    cases hp : y.pending[i]? with
    | none =>
      refine ⟨none, ⟨(fun q h => by rw [hp] at h; cases h), fun _ => rfl⟩, (fun m h => by cases h),
        fun _ => ?_⟩
      simp only [Sys.take, Sys.respond, hp]
      exact ⟨trivial, .inr trivial⟩
    | some q =>
      have hi := (List.getElem?_eq_some_iff.mp hp).1
      have h1 : TakenFor r refund .withdraw (.depositCycles (depositOutcome r)) :=
        ⟨_, rfl, (fun code h => by rw [h]; rfl), (fun bs h => by rw [h]; rfl)⟩
      have h2 : TakenFor r refund .createCanister (.cmc (cmcOutcome r) refund) :=
        ⟨_, rfl, (fun code h => by rw [h]; rfl),
          fun bs h t v more x hb hw => by rw [h]; exact (C104_answer x).1 bs t v more hb hw⟩
      have key : ∀ a, TakenFor r refund q.kind a → y.take dt (.response i r refund) =
          y.step ⟨dt, .callback i a⟩ → ∃ o, Carried y (.response i r refund) o ∧
          (∀ m, o = some m → y.take dt (.response i r refund) = y.step ⟨dt, m⟩) ∧
          (o = none → (y.take dt (.response i r refund)).1 = y.tick dt ∧
            ((y.take dt (.response i r refund)).2 = .trapped ∨
              (y.take dt (.response i r refund)).2 = .silent)) := by
        intro a ha he
        refine ⟨some (.callback i a), ⟨fun q' h => ?_, fun h => absurd hi (by omega)⟩, fun m h => ?_,
          (fun h => by cases h)⟩
        · rw [hp] at h; cases h; exact ⟨a, rfl, ha⟩
        · cases h; exact he
      cases hk : q.kind with
      | withdraw | withdrawFrom =>
        exact key _ (by rw [hk]; exact h1) (by simp only [Sys.take, Sys.respond, hp, hk])
      | createCanister | createCanisterFrom =>
        exact key _ (by rw [hk]; exact h2) (by simp only [Sys.take, Sys.respond, hp, hk])
  | lost i => exact ⟨_, rfl, (fun m h => by cases h; rfl), (fun h => by cases h)⟩
  | upgrade bs =>
    cases hd : decode (desOpt desLedger) bs with
    | none =>
      refine ⟨none, (fun m h => by cases h), (fun m h => by cases h), fun _ => ?_⟩
      simp only [Sys.take, Sys.upgradeWith, hd]
      exact ⟨trivial, .inl trivial⟩
    | some o =>
      refine ⟨some (.upgrade (upgradeArg o)), (fun m h => by cases h; exact ⟨_, rfl⟩), (fun m h => ?_),
        (fun h => by cases h)⟩
      cases h
      simp only [Sys.take, Sys.upgradeWith, hd]

/-- **C108**: every reply, to whatever bytes, can be sent and is in the type of its method. -/
theorem C108_replies [Crypto] {y : Sys} (h : Reachable y) (dt : Nat) (i : Input) {text : Bytes}
    {t : Candid.Ty} {v : Val} (hr : reply text (y.take dt i).2 = some (t, v)) :
    wReply (y.take dt i).2 t v ∧ ∃ bs, IsMessage bs [(t, v)] := by
  have key : ∀ r : Sys × Reply, (r.2 = .trapped ∨ r.2 = .silent ∨ ∃ m, r = y.step ⟨dt, m⟩) →
      reply text r.2 = some (t, v) → wReply r.2 t v ∧ ∃ bs, IsMessage bs [(t, v)] := by
    rintro r (he | he | ⟨m, rfl⟩) hr
    · rw [he] at hr; cases hr
    · rw [he] at hr; cases hr
    · exact C103_replies h _ hr
  refine key _ ?_ hr
  cases i with
  | call c =>
    simp only [Sys.take, Sys.receive]
    cases c.msg with
    | none => exact .inl rfl
    | some m => exact .inr (.inr ⟨m, rfl⟩)
  | response i r refund =>
    simp only [Sys.take, Sys.respond]
    split
    · exact .inr (.inl rfl)
    · split <;> exact .inr (.inr ⟨_, rfl⟩)
  | lost i => exact .inr (.inr ⟨_, rfl⟩)
  | upgrade bs =>
    simp only [Sys.take, Sys.upgradeWith]
    split
    · exact .inr (.inr ⟨_, rfl⟩)
    · exact .inl rfl

/-- **C108**: an argument that says `Init` installs the canister with what it says; one that says
`Upgrade`, and a message without arguments, do not install it. -/
theorem C108_install [Crypto] {bs : Bytes} {args : List (Candid.Ty × Val)} (hb : IsMessage bs args)
    (now cycles : Nat) :
    (∀ t v more c, args = (t, v) :: more → wLedger (.init c) t v →
      Sys.install bs now cycles = Sys.init c now cycles ∧
      ((∃ y, Sys.install bs now cycles = some y) ↔
        ((c.initialBalances.getD []).map Prod.snd).sum < 2 ^ 128)) ∧
    (∀ t v more o, args = (t, v) :: more → wLedger (.upgrade o) t v →
      Sys.install bs now cycles = none) ∧
    (args = [] → Sys.install bs now cycles = none) := by
  obtain ⟨h1, _, h3⟩ := C102_lifecycle hb
  refine ⟨fun t v more c he hw => ?_, fun t v more o he hw => ?_, fun he => ?_⟩
  · have : Sys.install bs now cycles = Sys.init c now cycles := by
      unfold Sys.install; rw [h1 t v more _ he hw]
    rw [this]
    exact ⟨rfl, C69_installs c now cycles⟩
  · unfold Sys.install; rw [h1 t v more _ he hw]
  · unfold Sys.install; rw [(h3 he).1]

/-- **C108**: bytes that are no message install nothing and upgrade nothing. -/
theorem C108_no_message [Crypto] {bs : Bytes} (hb : ¬∃ args, IsMessage bs args) :
    (∀ now cycles, Sys.install bs now cycles = none) ∧
    ∀ (y : Sys) dt, y.upgradeWith dt bs = (y.tick dt, .trapped) := by
  have hd := fun {A : Type} (d : Des A) => (C102_only_messages (bs := bs)).2 hb d
  exact ⟨fun _ _ => by simp only [Sys.install, hd], fun _ _ => by simp only [Sys.upgradeWith, hd]⟩

/-- **C108**: a canister that is installed was installed by an argument that says `Init`, and the
limit, the index and every balance it starts with are in the argument. -/
theorem C108_installed_as_written [Crypto] {bs : Bytes} {args : List (Candid.Ty × Val)}
    (hb : IsMessage bs args) {now cycles : Nat} {y : Sys}
    (h : Sys.install bs now cycles = some y) :
    ∃ t v more, args = (t, v) :: more ∧ mCaseOf "Init" mConfig y.ledger.config t v ∧
      (∀ a, icrc1BalanceOf y.ledger a = Spec.given (y.ledger.config.initialBalances.getD []) a) ∧
      y.ledger.blocks.length = (y.ledger.config.initialBalances.getD []).length := by
  obtain ⟨c, hc, hi⟩ := install_init h
  obtain ⟨t, v, more, he, hm⟩ := decode_soundW soundW_ledger rfl hb hc
  obtain ⟨h1, h2, _, _, h5, _⟩ := C69_installed hi
  refine ⟨t, v, more, he, by rw [h5]; exact hm, by rw [h5]; exact h2, ?_⟩
  rw [h5]
  have := congrArg List.length h1
  simpa using this

/-- **C108**: an upgrade, whatever the bytes, changes nothing but the configuration. -/
theorem C108_upgrade_safe [Crypto] {y : Sys} (h : Reachable y) (dt : Nat) (bs : Bytes) :
    ∃ c, (y.upgradeWith dt bs).1 = { y.tick dt with ledger := { y.ledger with config := c } } ∧
      ((y.upgradeWith dt bs).2 = .trapped → c = y.ledger.config) := by
  unfold Sys.upgradeWith
  split
  · rename_i o ho
    simp only [Sys.step]
    by_cases hc : ∃ c, upgradeArg o = .init c
    · obtain ⟨c, hc⟩ := hc
      refine ⟨y.ledger.config, ?_, fun _ => rfl⟩
      rw [hc, C41_init_refused]
      rfl
    · obtain ⟨y', hx, hy⟩ := C41_preserved (h.tick dt) (upgradeArg o) (fun c e => hc ⟨c, e⟩)
      rw [hx]
      exact ⟨y'.ledger.config, hy.2.2.2.2.2.2.2.2.2, fun e => by cases e⟩
  · exact ⟨y.ledger.config, rfl, fun _ => rfl⟩

/-- The configuration after an upgrade with these arguments. -/
theorem upgradeWith_config [Crypto] {y : Sys} (h : Reachable y) (dt : Nat) {bs : Bytes}
    {o : Option LedgerArgs} (ho : decode (desOpt desLedger) bs = some o) :
    (y.upgradeWith dt bs).1.ledger.config = Spec.upgraded y.ledger.config (upgradeArg o) := by
  unfold Sys.upgradeWith
  rw [ho]
  simp only [Sys.step]
  by_cases hc : ∃ c, upgradeArg o = .init c
  · obtain ⟨c, hc⟩ := hc
    rw [hc, C41_init_refused]
    rfl
  · obtain ⟨y', hx, hy⟩ := C41_preserved (h.tick dt) (upgradeArg o) (fun c e => hc ⟨c, e⟩)
    rw [hx]
    exact hy.2.2.2.2.2.2.2.2.1

/-- **C108**: an upgrade does what its argument says: the limit and the index become what is written,
if something is written, and stay as they are otherwise.  `Init` is refused. -/
theorem C108_upgrade [Crypto] {y : Sys} (h : Reachable y) (dt : Nat) {bs : Bytes}
    {args : List (Candid.Ty × Val)} (hb : IsMessage bs args) :
    (args = [] → (y.upgradeWith dt bs).2 = .silent ∧
      (y.upgradeWith dt bs).1.ledger.config = y.ledger.config) ∧
    ∀ t v more o, args = (t, v) :: more → wOpt wLedger o t v →
      (∀ c, o = some (.init c) → y.upgradeWith dt bs = (y.tick dt, .trapped)) ∧
      ((∀ c, o ≠ some (.init c)) → (y.upgradeWith dt bs).2 = .silent) ∧
      (∀ u, o = some (.upgrade (some u)) →
        (∀ n, u.maxBlocksPerRequest = some n →
          (y.upgradeWith dt bs).1.ledger.config.maxBlocksPerRequest = n.toNat) ∧
        (u.maxBlocksPerRequest = none →
          (y.upgradeWith dt bs).1.ledger.config.maxBlocksPerRequest =
            y.ledger.config.maxBlocksPerRequest) ∧
        (∀ p, u.changeIndexId = some (.setTo p) →
          (y.upgradeWith dt bs).1.ledger.config.indexId = some p) ∧
        (u.changeIndexId = some .unset → (y.upgradeWith dt bs).1.ledger.config.indexId = none) ∧
        (u.changeIndexId = none →
          (y.upgradeWith dt bs).1.ledger.config.indexId = y.ledger.config.indexId)) ∧
      ((∀ u, o ≠ some (.upgrade (some u))) →
        (y.upgradeWith dt bs).1.ledger.config = y.ledger.config) := by
  obtain ⟨_, h2, h3⟩ := C102_lifecycle hb
  have silent : ∀ o, decode (desOpt desLedger) bs = some o → (∀ c, o ≠ some (.init c)) →
      (y.upgradeWith dt bs).2 = .silent := by
    intro o ho hne
    unfold Sys.upgradeWith
    rw [ho]
    obtain ⟨y', hx, _⟩ := C41_preserved (h.tick dt) (upgradeArg o) (fun c e => by
      match o, e with
      | none, e => cases e
      | some (.upgrade u), e => cases e
      | some (.init c'), _ => exact hne c' rfl)
    simp only [Sys.step, hx]
  constructor
  · intro he
    have ho := (h3 he).2
    exact ⟨silent none ho (fun c e => by cases e), upgradeWith_config h dt ho⟩
  · intro t v more o he hw
    have ho := h2 t v more o he hw
    have hcfg := upgradeWith_config h dt ho
    refine ⟨?_, silent o ho, ?_, ?_⟩
    · rintro c rfl
      unfold Sys.upgradeWith
      rw [ho]
      exact C41_init_refused _ c
    · rintro u rfl
      rw [hcfg]
      obtain ⟨mb, ci⟩ := u
      refine ⟨?_, ?_, ?_, ?_, ?_⟩
      · rintro n rfl; rfl
      · rintro rfl; rfl
      · rintro p rfl; rfl
      · rintro rfl; rfl
      · rintro rfl; rfl
    · intro hne
      rw [hcfg]
      match o, hne with
      | none, _ => rfl
      | some (.init c), _ => rfl
      | some (.upgrade none), _ => rfl
      | some (.upgrade (some u)), hne => exact absurd rfl (hne u)

/-- **C108**: an upgrade that changes the limit or the index has an argument that says so. -/
theorem C108_upgraded_as_written [Crypto] {y : Sys} (h : Reachable y) (dt : Nat) {bs : Bytes}
    {args : List (Candid.Ty × Val)} (hb : IsMessage bs args) {c : Config}
    (hc : (y.upgradeWith dt bs).1.ledger.config = c) :
    c.initialBalances = y.ledger.config.initialBalances ∧
    (c.maxBlocksPerRequest ≠ y.ledger.config.maxBlocksPerRequest → ∃ t v more u n,
      args = (t, v) :: more ∧ wOpt mLedger (some (.upgrade (some u))) t v ∧
      u.maxBlocksPerRequest = some n ∧ n.toNat = c.maxBlocksPerRequest) ∧
    (c.indexId ≠ y.ledger.config.indexId → ∃ t v more u,
      args = (t, v) :: more ∧ wOpt mLedger (some (.upgrade (some u))) t v ∧
      (u.changeIndexId = some .unset ∧ c.indexId = none ∨
        ∃ p, u.changeIndexId = some (.setTo p) ∧ c.indexId = some p)) := by
  subst hc
  cases ho : decode (desOpt desLedger) bs with
  | none =>
    have : (y.upgradeWith dt bs).1.ledger.config = y.ledger.config := by
      unfold Sys.upgradeWith; rw [ho]; rfl
    rw [this]
    exact ⟨rfl, fun e => absurd rfl e, fun e => absurd rfl e⟩
  | some o =>
    rw [upgradeWith_config h dt ho]
    match o, ho with
    | none, _ => exact ⟨rfl, fun e => absurd rfl e, fun e => absurd rfl e⟩
    | some (.init c), _ => exact ⟨rfl, fun e => absurd rfl e, fun e => absurd rfl e⟩
    | some (.upgrade none), _ => exact ⟨rfl, fun e => absurd rfl e, fun e => absurd rfl e⟩
    | some (.upgrade (some u)), ho =>
      obtain ⟨t, v, more, he, hm⟩ := decode_soundOpt soundW_ledger hb ho
      refine ⟨rfl, fun hne => ?_, fun hne => ?_⟩
      · obtain ⟨mb, ci⟩ := u
        cases mb with
        | none => exact absurd rfl hne
        | some n => exact ⟨t, v, more, _, n, he, hm, rfl, rfl⟩
      · obtain ⟨mb, ci⟩ := u
        refine ⟨t, v, more, _, he, hm, ?_⟩
        match ci, hne with
        | none, hne => exact absurd rfl hne
        | some .unset, _ => exact .inl ⟨rfl, rfl⟩
        | some (.setTo p), _ => exact .inr ⟨p, rfl, rfl⟩

/-- **C108**: what C102 says about update calls holds of queries as well, and of the settings of a
canister to be created: whatever is read, the controllers above all, is written in the argument. -/
theorem C108_nothing_invented {bs : Bytes} {args : List (Candid.Ty × Val)} (hb : IsMessage bs args) :
    (∀ a, decode desAccount bs = some a → ∃ t v more, args = (t, v) :: more ∧ mAccount a t v) ∧
    (∀ a, decode desAllowance bs = some a → ∃ t v more, args = (t, v) :: more ∧ mAllowance a t v) ∧
    (∀ a, decode desGetBlocks bs = some a → ∃ t v more, args = (t, v) :: more ∧ mVec mRange a t v) ∧
    (∀ a, decode desGetAllowances bs = some a →
      ∃ t v more, args = (t, v) :: more ∧ mGetAllowances a t v) ∧
    (∀ a, decode desCreate bs = some a →
      ∃ t v more, args = (t, v) :: more ∧ mCreation a.creationArgs t v) ∧
    (∀ a, decode desCreateFrom bs = some a →
      ∃ t v more, args = (t, v) :: more ∧ mCreation a.creationArgs t v) :=
  ⟨fun _ => decode_soundW sound_account.wf rfl hb, fun _ => decode_soundW soundW_allowance rfl hb,
    fun _ => decode_soundW (soundW_vec soundW_range) rfl hb,
    fun _ => decode_soundW soundW_getAllowances rfl hb,
    fun _ => decode_soundW soundW_create rfl hb, fun _ => decode_soundW soundW_createFrom rfl hb⟩

/-- An `Init` argument: at most 50 blocks per request, and 1_000_000_000 for `alice`. -/
def Spec.Candid.anInit : Bytes :=
  [68, 73, 68, 76, 5,
   0x6c, 1, 179, 176, 218, 195, 3, 0x68,                                -- 0: record { owner : principal }
   0x6c, 2, 0, 0, 1, 0x7d,                                              -- 1: record { 0; nat }
   0x6d, 1,                                                             -- 2: vec 1
   0x6c, 2, 178, 164, 218, 178, 5, 2, 175, 224, 255, 135, 13, 0x78,     -- 3: record { initial_balances;
                                                                        --   max_blocks_per_request : nat64 }
   0x6b, 1, 176, 206, 209, 132, 3, 3,                                   -- 4: variant { Init : 3 }
   1, 4,
   0, 1, 1, 1, 1, 128, 148, 235, 220, 3, 50, 0, 0, 0, 0, 0, 0, 0]

/-- An `Upgrade` argument: at most 7 blocks per request. -/
def Spec.Candid.anUpgrade : Bytes :=
  [68, 73, 68, 76, 2,
   0x6c, 1, 175, 224, 255, 135, 13, 0x78,                               -- 0: record { max_blocks… : nat64 }
   0x6b, 1, 252, 184, 139, 132, 3, 0,                                   -- 1: variant { Upgrade : 0 }
   1, 1,
   0, 7, 0, 0, 0, 0, 0, 0, 0]

def Spec.Candid.anUpgradeTy : Candid.Ty :=
  .variant (.cons 813882492 (.record (.cons 3506434095 (.fixed .nat64) .nil)) .nil)

def Spec.Candid.anUpgradeVal : Val :=
  .variant 0 (.record (.cons (.fixed [7, 0, 0, 0, 0, 0, 0, 0]) .nil))

theorem Spec.Candid.anUpgrade_message : IsMessage anUpgrade [(anUpgradeTy, anUpgradeVal)] := by
  refine isMessage_one (table := [.record [(3506434095, -8)], .variant [(813882492, 0)]]) (r := 1)
    (by decide +kernel) ?_ ?_ (by decide +kernel)
  · simp only [anUpgradeTy, Denotes, DenotesAll]
    exact ⟨_, ⟨by decide, rfl⟩, _, _, rfl,
      ⟨_, ⟨by decide, rfl⟩, _, _, rfl, rfl, rfl⟩, rfl⟩
  · simp only [anUpgradeTy, anUpgradeVal, HasTy, HasTys, HasCase]
    exact ⟨_, _, rfl, .inl ⟨rfl, _, rfl, _, _, rfl, ⟨_, rfl, rfl⟩, rfl⟩⟩

theorem Spec.Candid.anUpgrade_written :
    wLedger (.upgrade (some ⟨some 7, none⟩)) anUpgradeTy anUpgradeVal := by
  have hu : wUpgrade ⟨some 7, none⟩ (.record (.cons 3506434095 (.fixed .nat64) .nil))
      (.record (.cons (.fixed [7, 0, 0, 0, 0, 0, 0, 0]) .nil)) := by
    refine ⟨[(3506434095, .fixed .nat64, .fixed [7, 0, 0, 0, 0, 0, 0, 0])],
      ⟨by simp, rfl, rfl⟩, .inl ?_, .inr ⟨rfl, ?_⟩⟩
    · have : nameHash "max_blocks_per_request" = 3506434095 := by decide +kernel
      rw [Has, this]
      exact ⟨_, _, .head _, .inr (.inr ⟨7, rfl, rfl, congrArg Val.fixed (by decide +kernel)⟩)⟩
    · intro f hf
      simp only [List.mem_cons, List.not_mem_nil, or_false] at hf
      subst hf
      decide +kernel
  have hw : wOpt wUpgrade (some ⟨some 7, none⟩) (.record (.cons 3506434095 (.fixed .nat64) .nil))
      (.record (.cons (.fixed [7, 0, 0, 0, 0, 0, 0, 0]) .nil)) := .inr (.inr ⟨_, rfl, hu⟩)
  have hn : nameHash "Upgrade" = 813882492 := by decide +kernel
  refine ⟨_, _, ⟨[(813882492, .record (.cons 3506434095 (.fixed .nat64) .nil))], 0, rfl, by simp,
    ?_, by rw [hn]; rfl, rfl⟩, hw⟩
  intro c hc
  simp only [List.mem_cons, List.not_mem_nil, or_false] at hc
  subst hc
  exact ⟨_, .tail _ (.head _), hn.symm, _, _, hw⟩

open Toy in
/-- The ledger of the example is given this upgrade; its limit changes. -/
example : (demo.upgradeWith 1 anUpgrade).1.ledger.config.maxBlocksPerRequest = 7 ∧
    demo.ledger.config.maxBlocksPerRequest ≠ 7 := by
  refine ⟨(((C108_upgrade demo_reachable 1 anUpgrade_message).2 _ _ _ _ rfl
    (.inr (.inr ⟨_, rfl, anUpgrade_written⟩))).2.2.1 _ rfl).1 7 rfl, by decide +kernel⟩

open Toy in
/-- A life: installed, a transfer, an upgrade, an `Init` argument for an upgrade (refused), and a
message that is none. -/
def Toy.life : Option Sys :=
  (Sys.install anInit T 0).map (fun y => y.live
    [(5, .call ⟨"icrc1_transfer", alice, 0, aTransfer, none⟩), (1, .upgrade anUpgrade),
     (1, .upgrade anInit), (1, .call ⟨"icrc1_transfer", alice, 0, [68, 73, 68], none⟩)])

open Toy in
example : (Toy.life.map (fun y => (y.ledger.blocks.length, icrc1BalanceOf y.ledger (acc alice),
      icrc1BalanceOf y.ledger (acc ⟨[4], by decide⟩), y.ledger.config.maxBlocksPerRequest, y.now))) =
    some (2, 899999995, 5, 7, 1000000008) ∧
    (Sys.install anUpgrade T 0).isNone ∧ (Sys.install [68, 73, 68, 76, 0, 0] T 0).isNone := by
  decide +kernel

end CyclesLedger
