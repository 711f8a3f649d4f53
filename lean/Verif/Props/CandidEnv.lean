import Verif.Props.CandidFake
import Verif.Props.CandidHelpers
import Verif.Model.CandidEnv
/-!
# The ledger and the fake CMC together, in bytes

C116.
-/
namespace CyclesLedger

open Candid Spec.Candid

/-- What the reply to a call brings to the ledger: the cycles attached, if it is a deposit. -/
def Spec.paidIn (attached : Nat) : Reply → Nat
  | .deposit _ _ => attached
  | _ => 0

/-- Cycles of the outstanding calls of the ledger that nobody has accepted yet. -/
def Spec.onTheWay : List Pending → List (Option (Nat × Begun)) → Int
  | p :: ps, none :: ss => p.call.cycles + Spec.onTheWay ps ss
  | p :: ps, some (accepted, _) :: ss => (p.call.cycles - accepted : Int) + Spec.onTheWay ps ss
  | _, _ => 0

/-- All cycles: with the ledger, on the way, and with the fake CMC. -/
def Spec.envCycles (w : WireEnv) : Int :=
  w.sys.cycles + Spec.onTheWay w.sys.pending w.seen + w.kept

/-- No order tells the fake CMC to claim a refund above the least number of cycles it takes. -/
def Spec.FairOrders (es : List EnvEvent) : Prop :=
  ∀ bs r, EnvEvent.order bs ∈ es →
    Spec.Candid.ReadsAs Did.cmcError bs (Mean.failure (.refunded r)) → r.1 ≤ 100000000000

/-- The management canister does not reject a creation, but for an id that is taken. -/
def Spec.NoRejection (es : List EnvEvent) : Prop :=
  ∀ dt i mgmt, EnvEvent.answer dt i mgmt ∈ es → MgmtAnswer.rejected ∉ mgmt

/-- The ledger is installed, with the fake CMC beside it; then the events. -/
def EnvReachable [Crypto] (put put' : Candid.Ty × Val → Bytes) (y0 : Sys) (es : List EnvEvent)
    (w : WireEnv) : Prop :=
  (∃ config now cycles, Sys.init config now cycles = some y0) ∧
    w = WireEnv.run put put' ⟨y0, .init, 0, []⟩ es

/-! ## Messages of the ledger -/

section
variable [Crypto]

omit [Crypto] in
theorem commit_grow {ε α : Type} (y : Sys) (r : Res State ε α) (k : Except ε α → Reply) (n : Nat)
    (hk : ∀ x, Spec.paidIn n (k x) = 0) :
    (y.commit r k).1.pending = y.pending ∧ (y.commit r k).1.cycles = y.cycles ∧
      Spec.paidIn n (y.commit r k).2 = 0 := by
  cases r
  · exact ⟨rfl, rfl, hk _⟩
  · exact ⟨rfl, rfl, hk _⟩
  · exact ⟨rfl, rfl, rfl⟩

theorem sendWithdraw_grow (y : Sys) (r : Res State WithdrawFromError Suspended) (kind : CallKind)
    (to : Principal) (sync : Option CallError) (n : Nat) : ∃ l,
    (sendWithdraw y r kind to sync).1.pending = y.pending ++ l ∧
    (sendWithdraw y r kind to sync).1.cycles + ((l.map (·.call.cycles)).sum : Nat) = y.cycles ∧
    Spec.paidIn n (sendWithdraw y r kind to sync).2 = 0 := by
  have key : ∀ x : Sys × Reply, x.1.pending = y.pending ∧ x.1.cycles = y.cycles ∧
      Spec.paidIn n x.2 = 0 → ∃ l, x.1.pending = y.pending ++ l ∧
        x.1.cycles + ((l.map (·.call.cycles)).sum : Nat) = y.cycles ∧ Spec.paidIn n x.2 = 0 :=
    fun x h => ⟨[], by simp [h.1], by simp [h.2.1], h.2.2⟩
  unfold sendWithdraw
  split
  · exact key _ ⟨rfl, rfl, rfl⟩
  · split
    · exact key _ (commit_grow _ _ _ _ (fun _ => rfl))
    · exact key _ (commit_grow _ _ _ _ (fun _ => rfl))
  · split
    · exact ⟨[_], rfl, by simp, rfl⟩
    · unfold finishWithdraw
      split
      · exact key _ (commit_grow _ _ _ _ (fun _ => rfl))
      · exact key _ (commit_grow _ _ _ _ (fun _ => rfl))

theorem sendCreate_grow (y : Sys) (r : Res State CreateCanisterFromError Suspended) (kind : CallKind)
    (caller : Principal) (args : Option CmcArgs) (sync : Option CallError) (n : Nat) : ∃ l,
    (sendCreate y r kind caller args sync).1.pending = y.pending ++ l ∧
    (sendCreate y r kind caller args sync).1.cycles + ((l.map (·.call.cycles)).sum : Nat) = y.cycles ∧
    Spec.paidIn n (sendCreate y r kind caller args sync).2 = 0 := by
  have key : ∀ x : Sys × Reply, x.1.pending = y.pending ∧ x.1.cycles = y.cycles ∧
      Spec.paidIn n x.2 = 0 → ∃ l, x.1.pending = y.pending ++ l ∧
        x.1.cycles + ((l.map (·.call.cycles)).sum : Nat) = y.cycles ∧ Spec.paidIn n x.2 = 0 :=
    fun x h => ⟨[], by simp [h.1], by simp [h.2.1], h.2.2⟩
  unfold sendCreate
  split
  · exact key _ ⟨rfl, rfl, rfl⟩
  · split
    · exact key _ (commit_grow _ _ _ _ (fun _ => rfl))
    · exact key _ (commit_grow _ _ _ _ (fun _ => rfl))
  · split
    · exact ⟨[_], rfl, by simp, rfl⟩
    · unfold finishCreate
      split
      · exact key _ (commit_grow _ _ _ _ (fun _ => rfl))
      · exact key _ (commit_grow _ _ _ _ (fun _ => rfl))

theorem receive_grow (y : Sys) (dt : Nat) (c : Call) : ∃ l,
    (y.receive dt c).1.pending = y.pending ++ l ∧
    (y.receive dt c).1.cycles + ((l.map (·.call.cycles)).sum : Nat) =
      y.cycles + Spec.paidIn c.cycles.val (y.receive dt c).2 := by
  have key : ∀ x : Sys × Reply, x.1.pending = y.pending ∧ x.1.cycles = y.cycles ∧
      Spec.paidIn c.cycles.val x.2 = 0 → ∃ l, x.1.pending = y.pending ++ l ∧
        x.1.cycles + ((l.map (·.call.cycles)).sum : Nat) = y.cycles + Spec.paidIn c.cycles.val x.2 :=
    fun x h => ⟨[], by simp [h.1], by simp [h.2.1, h.2.2]⟩
  have key' : ∀ x : Sys × Reply, (∃ l, x.1.pending = y.pending ++ l ∧
        x.1.cycles + ((l.map (·.call.cycles)).sum : Nat) = y.cycles ∧
        Spec.paidIn c.cycles.val x.2 = 0) → ∃ l, x.1.pending = y.pending ++ l ∧
        x.1.cycles + ((l.map (·.call.cycles)).sum : Nat) = y.cycles + Spec.paidIn c.cycles.val x.2 := by
    rintro x ⟨l, h1, h2, h3⟩
    exact ⟨l, h1, by rw [h2, h3]; simp⟩
  unfold Sys.receive
  split
  · exact key _ ⟨rfl, rfl, rfl⟩
  · rename_i m hm
    unfold Call.msg at hm
    simp only [Sys.step]
    repeat' (split at hm)
    all_goals first
      | (cases hm; done)
      | (obtain ⟨a, _, rfl⟩ := Option.map_eq_some_iff.mp hm
         simp only [Sys.exec]
         first
          | exact key _ (commit_grow (y.tick dt) _ _ _ (fun _ => rfl))
          | exact key' _ (sendWithdraw_grow (y.tick dt) _ _ _ _ _)
          | exact key' _ (sendCreate_grow (y.tick dt) _ _ _ _ _ _)
          | (split
             · exact ⟨[], by simp [Sys.tick], by simp [Sys.tick, Spec.paidIn]⟩
             · rename_i e _ _; exact nomatch e
             · exact key _ ⟨rfl, rfl, rfl⟩))

theorem respond_create {y : Sys} (h : Reachable y) {i : Nat} {p : Pending} (hp : y.pending[i]? = some p)
    {args : CmcArgs} (ha : p.call.body = .createCanister args) (dt : Nat) (r : Response)
    (refund : Nat) :
    y.respond dt i r refund = y.step ⟨dt, .callback i (.cmc (cmcOutcome r) refund)⟩ ∧
    (y.respond dt i r refund).1.pending = y.pending.eraseIdx i ∧
    (y.respond dt i r refund).1.cycles = y.cycles + refund := by
  rcases (h.callOk p (List.mem_of_getElem? hp)).body with ⟨_, _, to, hb, _⟩ | ⟨hk, _⟩
  · rw [ha] at hb; cases hb
  · have e : y.respond dt i r refund = y.step ⟨dt, .callback i (.cmc (cmcOutcome r) refund)⟩ := by
      unfold Sys.respond
      rw [hp]
      rcases hk with hk | hk <;> simp only [hk]
    refine ⟨e, ?_⟩
    rw [e]
    have ht : (y.tick dt).pending[i]? = some p := hp
    rcases hk with hk | hk
    all_goals
      simp only [Sys.step, Sys.exec, ht, hk, finishCreate]
      exact ⟨(commit_grow _ _ _ 0 (fun _ => rfl)).1, (commit_grow _ _ _ 0 (fun _ => rfl)).2.1⟩

theorem respond_deposit {y : Sys} (h : Reachable y) {i : Nat} {p : Pending} (hp : y.pending[i]? = some p)
    {to : Principal} (ha : p.call.body = .depositCycles to) (dt : Nat) (r : Response)
    (refund : Nat) :
    y.respond dt i r refund = y.step ⟨dt, .callback i (.depositCycles (depositOutcome r))⟩ ∧
    (y.respond dt i r refund).1.pending = y.pending.eraseIdx i ∧
    (y.respond dt i r refund).1.cycles =
      y.cycles + (match r with | .reply _ => 0 | .reject _ => p.call.cycles : Nat) := by
  rcases (h.callOk p (List.mem_of_getElem? hp)).body with ⟨hk, _⟩ | ⟨_, _, ⟨a, hb⟩, _⟩
  · have e : y.respond dt i r refund =
        y.step ⟨dt, .callback i (.depositCycles (depositOutcome r))⟩ := by
      unfold Sys.respond
      rw [hp]
      rcases hk with hk | hk <;> simp only [hk]
    refine ⟨e, ?_⟩
    rw [e]
    have ht : (y.tick dt).pending[i]? = some p := hp
    rcases hk with hk | hk
    all_goals
      simp only [Sys.step, Sys.exec, ht, hk, finishWithdraw]
      refine ⟨(commit_grow _ _ _ 0 (fun _ => rfl)).1, ?_⟩
      rw [(commit_grow _ _ _ 0 (fun _ => rfl)).2.1]
      cases r <;> simp [depositOutcome, Sys.tick]
  · rw [ha] at hb; cases hb

theorem upgrade_same (y : Sys) (dt : Nat) (bs : Bytes) :
    (y.upgradeWith dt bs).1.pending = y.pending ∧ (y.upgradeWith dt bs).1.cycles = y.cycles := by
  unfold Sys.upgradeWith
  split
  · simp only [Sys.step, Sys.exec]
    split <;> exact ⟨rfl, rfl⟩
  · exact ⟨rfl, rfl⟩

end

/-! ## Cycles on the way -/

def acceptedOf : Option (Nat × Begun) → Nat
  | none => 0
  | some x => x.1

theorem onTheWay_erase {ps : List Pending} {ss : List (Option (Nat × Begun))} {i : Nat} {p : Pending}
    {s : Option (Nat × Begun)} (hp : ps[i]? = some p) (hs : ss[i]? = some s) :
    Spec.onTheWay ps ss = Spec.onTheWay (ps.eraseIdx i) (ss.eraseIdx i) +
      (p.call.cycles - acceptedOf s : Int) := by
  induction ps generalizing ss i with
  | nil => simp at hp
  | cons q ps ih =>
    cases ss with
    | nil => simp at hs
    | cons z ss =>
      cases i with
      | zero =>
        simp only [List.getElem?_cons_zero, Option.some.injEq] at hp hs
        subst hp hs
        cases z with
        | none => simp only [List.eraseIdx_zero, List.tail_cons, Spec.onTheWay, acceptedOf]; omega
        | some z => simp only [List.eraseIdx_zero, List.tail_cons, Spec.onTheWay, acceptedOf]; omega
      | succ i =>
        simp only [List.getElem?_cons_succ] at hp hs
        have := ih hp hs
        cases z with
        | none => simp only [List.eraseIdx_cons_succ, Spec.onTheWay]; omega
        | some z => simp only [List.eraseIdx_cons_succ, Spec.onTheWay]; omega

theorem onTheWay_set {ps : List Pending} {ss : List (Option (Nat × Begun))} {i : Nat} {p : Pending}
    (hp : ps[i]? = some p) (hs : ss[i]? = some none) (x : Nat × Begun) :
    Spec.onTheWay ps ss = Spec.onTheWay ps (ss.set i (some x)) + x.1 := by
  induction ps generalizing ss i with
  | nil => simp at hp
  | cons q ps ih =>
    cases ss with
    | nil => simp at hs
    | cons z ss =>
      cases i with
      | zero =>
        simp only [List.getElem?_cons_zero, Option.some.injEq] at hp hs
        subst hp hs
        simp only [List.set_cons_zero, Spec.onTheWay]; omega
      | succ i =>
        simp only [List.getElem?_cons_succ] at hp hs
        have := ih hp hs
        cases z with
        | none => simp only [List.set_cons_succ, Spec.onTheWay]; omega
        | some z => simp only [List.set_cons_succ, Spec.onTheWay]; omega

theorem onTheWay_append {ps : List Pending} {ss : List (Option (Nat × Begun))}
    (h : ss.length = ps.length) (l : List Pending) :
    Spec.onTheWay (ps ++ l) (ss ++ List.replicate l.length none) =
      Spec.onTheWay ps ss + ((l.map (·.call.cycles)).sum : Nat) := by
  induction ps generalizing ss with
  | nil =>
    cases ss with
    | cons => simp at h
    | nil =>
      simp only [List.nil_append, Spec.onTheWay]
      induction l with
      | nil => simp [Spec.onTheWay]
      | cons p l ih =>
        simp only [List.length_cons, List.replicate_succ, Spec.onTheWay, List.map_cons, List.sum_cons]
        omega
  | cons q ps ih =>
    cases ss with
    | nil => simp at h
    | cons z ss =>
      have := ih (ss := ss) (by simpa using h)
      cases z with
      | none => simp only [List.cons_append, Spec.onTheWay]; omega
      | some z => simp only [List.cons_append, Spec.onTheWay]; omega

/-! ## The invariant -/

/-- The orders of the fake CMC were made in this history. -/
def Spec.MadeIn (es : List EnvEvent) (cs : List CmcEvent) : Prop :=
  ∀ bs, CmcEvent.failNext bs ∈ cs → EnvEvent.order bs ∈ es

/-- `p` has reached the fake CMC, which had got `cs` before. -/
def Spec.Reached (es : List EnvEvent) (p : Pending) (x : Nat × Begun) : Prop :=
  ∃ args cs bs c', p.call.body = .createCanister args ∧
    IsMessage bs [(tyCmcArgs, putCmcArgs args)] ∧ Spec.MadeIn es cs ∧
    (WireCmc.init.run cs).begin bs p.call.cycles = (c', x)

structure EnvInv [Crypto] (es : List EnvEvent) (w : WireEnv) : Prop where
  reach : Reachable w.sys
  len : w.seen.length = w.sys.pending.length
  cmc : ∃ cs, w.cmc = WireCmc.init.run cs ∧ Spec.MadeIn es cs
  seen : ∀ (i : Nat) x, w.seen[i]? = some (some x) → ∃ p, w.sys.pending[i]? = some p ∧ Spec.Reached es p x

theorem Spec.Reached.mono {es : List EnvEvent} {p : Pending} {x : Nat × Begun} (h : Spec.Reached es p x)
    (e : EnvEvent) : Spec.Reached (es ++ [e]) p x := by
  obtain ⟨args, cs, bs, c', h1, h2, h3, h4⟩ := h
  exact ⟨args, cs, bs, c', h1, h2, fun b hb => List.mem_append_left _ (h3 b hb), h4⟩

theorem begin_le (c : WireCmc) (bs : Bytes) (n : Nat) : (c.begin bs n).2.1 ≤ n := by
  unfold WireCmc.begin
  split
  · exact Nat.zero_le _
  · split
    · exact Nat.zero_le _
    · split
      · exact Nat.min_le_left _ _
      · exact Nat.le_refl _
      · exact Nat.le_refl _

theorem Spec.Reached.le {es : List EnvEvent} {p : Pending} {x : Nat × Begun} (h : Spec.Reached es p x) :
    x.1 ≤ p.call.cycles := by
  obtain ⟨args, cs, bs, c', _, _, _, h⟩ := h
  have := begin_le (WireCmc.init.run cs) bs p.call.cycles
  rw [h] at this
  exact this

theorem mem_eraseIdx_get {α β : Type} {P : α → β → Prop} {xs : List α} {ys : List (Option β)}
    (h : ∀ (i : Nat) b, ys[i]? = some (some b) → ∃ a, xs[i]? = some a ∧ P a b) (k : Nat) :
    ∀ (i : Nat) b, (ys.eraseIdx k)[i]? = some (some b) → ∃ a, (xs.eraseIdx k)[i]? = some a ∧ P a b := by
  intro i b hb
  rw [List.getElem?_eraseIdx] at hb ⊢
  split at hb
  · rename_i hlt; simpa [hlt] using h i b hb
  · rename_i hlt; simpa [hlt] using h (i + 1) b hb

theorem honest_other {y : Sys} {m : Msg} (h : ∀ i a, m ≠ .callback i a) : Spec.Honest y m :=
  fun i _ _ _ _ hm => absurd hm (h i _)

theorem receive_surplus [Crypto] {y : Sys} (h : Reachable y) (dt : Nat) (c : Call) :
    Reachable (y.receive dt c).1 ∧ Spec.surplus y ≤ Spec.surplus (y.receive dt c).1 := by
  unfold Sys.receive
  split
  · exact ⟨h.tick dt, Int.le_refl _⟩
  · rename_i m hm
    refine ⟨h.step _, C07_surplus_kept h _ (honest_other ?_)⟩
    rintro i a rfl
    unfold Call.msg at hm
    repeat' (split at hm)
    all_goals first
      | (cases hm; done)
      | (obtain ⟨a, _, h⟩ := Option.map_eq_some_iff.mp hm; cases h)

theorem upgrade_surplus [Crypto] {y : Sys} (h : Reachable y) (dt : Nat) (bs : Bytes) :
    Reachable (y.upgradeWith dt bs).1 ∧ Spec.surplus y ≤ Spec.surplus (y.upgradeWith dt bs).1 := by
  unfold Sys.upgradeWith
  split
  · exact ⟨h.step _, C07_surplus_kept h _ (honest_other (fun _ _ h => nomatch h))⟩
  · exact ⟨h.tick dt, Int.le_refl _⟩

/-- The answer of the fake CMC can be sent. -/
theorem reached_sendable {es : List EnvEvent} {p : Pending} {x : Nat × Begun} (h : Spec.Reached es p x)
    {mgmt : List MgmtAnswer} {o : Option (Candid.Ty × Val)} (ho : x.2.answer mgmt = some o)
    {put : Candid.Ty × Val → Bytes} (hp : Encoder put) : Responds o (fakeResponse put o) := by
  obtain ⟨args, cs, bs, c', h1, h2, h3, h4⟩ := h
  have hd : decode desCmcArgs bs = some args :=
    decode_reads reads_cmcArgs h2 (good_cmcArgs.ok args trivial)
  have hra := (request_iff _ _).mp hd
  have key : ∀ {z}, Told o wFakeReply z → Responds o (fakeResponse put o) := by
    rintro z ⟨t, v, rfl, hb, _⟩
    exact hp t v hb
  obtain ⟨acc, b⟩ := x
  obtain ⟨k1, k2⟩ := C115_answered cs hra mgmt h4 ho
  by_cases hn : p.call.cycles < 100000000000
  · exact key (k1 hn).1
  · obtain ⟨k3, _, k5⟩ := k2 (by omega)
    by_cases hdue : ∃ e, Due cs e
    · obtain ⟨e, he⟩ := hdue
      exact key (k3 e he).1
    · obtain ⟨_, _, _, _, ⟨q, _, hq⟩ | ⟨_, rfl⟩⟩ := k5 (fun e he => hdue ⟨e, he⟩)
      · exact key hq
      · rfl

theorem inv_step [Crypto] {put put' : Candid.Ty × Val → Bytes} (hp : Encoder put)
    {es : List EnvEvent} {w : WireEnv} (h : EnvInv es w) (e : EnvEvent) :
    EnvInv (es ++ [e]) (w.step put put' e).1 := by
  have hcm : ∃ cs, w.cmc = WireCmc.init.run cs ∧ Spec.MadeIn (es ++ [e]) cs := by
    obtain ⟨cs, h1, h2⟩ := h.cmc
    exact ⟨cs, h1, fun b hb => List.mem_append_left _ (h2 b hb)⟩
  have hse : ∀ (i : Nat) x, w.seen[i]? = some (some x) →
      ∃ p, w.sys.pending[i]? = some p ∧ Spec.Reached (es ++ [e]) p x := by
    intro i x hx
    obtain ⟨p, h1, h2⟩ := h.seen i x hx
    exact ⟨p, h1, h2.mono e⟩
  have same : EnvInv (es ++ [e]) w := ⟨h.reach, h.len, hcm, hse⟩
  cases e with
  | call dt c =>
    obtain ⟨l, hl, _⟩ := receive_grow w.sys dt c
    refine ⟨(receive_surplus h.reach dt c).1, ?_, hcm, ?_⟩
    · simp only [WireEnv.step, hl, List.length_append, List.length_replicate, h.len]
      omega
    · intro i x hx
      simp only [WireEnv.step, hl] at hx ⊢
      by_cases hi : i < w.seen.length
      · rw [List.getElem?_append_left hi] at hx
        rw [List.getElem?_append_left (by rw [← h.len]; exact hi)]
        exact hse i x hx
      · rw [List.getElem?_append_right (by omega), List.getElem?_replicate] at hx
        split at hx <;> simp at hx
  | upgrade dt bs =>
    have := (upgrade_same w.sys dt bs).1
    refine ⟨(upgrade_surplus h.reach dt bs).1, ?_, hcm, ?_⟩
    · simp only [WireEnv.step, this, h.len]
    · simp only [WireEnv.step, this]; exact hse
  | order bs =>
    obtain ⟨cs, h1, h2⟩ := hcm
    refine ⟨h.reach, h.len, ⟨cs ++ [.failNext bs], ?_, ?_⟩, hse⟩
    · simp only [WireEnv.step, h1, WireCmc.run, List.foldl_append, List.foldl_cons, List.foldl_nil]
    · intro b hb
      rcases List.mem_append.mp hb with hb | hb
      · exact h2 b hb
      · rw [List.mem_singleton] at hb
        cases hb
        exact List.mem_append_right _ (List.mem_singleton.mpr rfl)
  | arrive i =>
    simp only [WireEnv.step]
    split
    · rename_i p hpp hs
      split
      · rename_i args ha
        obtain ⟨cs, h1, h2⟩ := hcm
        have hb : IsMessage (put (sentCall (.createCanister args)).2) [(tyCmcArgs, putCmcArgs args)] :=
          hp _ _ (message_of_wf good_cmcArgs.wf (good_cmcArgs.typed args))
        refine ⟨h.reach, ?_, ⟨cs ++ [.create (put (sentCall (.createCanister args)).2) p.call.cycles],
          ?_, ?_⟩, ?_⟩
        · simp only [List.length_set, h.len]
        · simp only [h1, WireCmc.run, List.foldl_append, List.foldl_cons, List.foldl_nil, WireCmc.step]
        · intro b hb
          rcases List.mem_append.mp hb with hb | hb
          · exact h2 b hb
          · rw [List.mem_singleton] at hb
            cases hb
        · intro k x hx
          simp only [List.getElem?_set] at hx
          split at hx
          · rename_i hk
            subst hk
            split at hx
            · simp only [Option.some.injEq] at hx
              refine ⟨p, hpp, args, cs, _, (w.cmc.begin (put (sentCall (.createCanister args)).2)
                p.call.cycles).1, ha, hb, h2, ?_⟩
              rw [← hx, h1]
            · cases hx
          · exact hse k x hx
      · exact same
    · exact same
  | answer dt i mgmt =>
    simp only [WireEnv.step]
    split
    · rename_i p acc b hpp hs
      split
      · rename_i o ho
        obtain ⟨q, hq, hr⟩ := h.seen i _ hs
        rw [hpp] at hq
        cases hq
        obtain ⟨args, _, _, _, ha, _⟩ := hr
        obtain ⟨e1, e2, _⟩ := respond_create h.reach hpp ha dt (fakeResponse put' o) (p.call.cycles - acc)
        refine ⟨?_, ?_, hcm, ?_⟩
        · simp only [e1]; exact h.reach.step _
        · simp only [e2, List.length_eraseIdx, h.len]
        · simp only [e2]
          exact mem_eraseIdx_get hse i
      · exact same
    · exact same
  | deposited dt i r =>
    simp only [WireEnv.step]
    split
    · rename_i p hpp
      split
      · rename_i to ha
        obtain ⟨e1, e2, _⟩ := respond_deposit h.reach hpp ha dt r 0
        refine ⟨?_, ?_, hcm, ?_⟩
        · simp only [e1]; exact h.reach.step _
        · simp only [e2, List.length_eraseIdx, h.len]
        · simp only [e2]
          exact mem_eraseIdx_get hse i
      · exact same
    · exact same

theorem inv_run [Crypto] {put put' : Candid.Ty × Val → Bytes} (hp : Encoder put)
    {es0 : List EnvEvent} {w : WireEnv} (h : EnvInv es0 w) (es : List EnvEvent) :
    EnvInv (es0 ++ es) (w.run put put' es) := by
  induction es generalizing es0 w with
  | nil => rw [List.append_nil]; exact h
  | cons e es ih =>
    have := ih (inv_step (put' := put') hp h e)
    simpa [WireEnv.run] using this

theorem EnvReachable.inv [Crypto] {put put' : Candid.Ty × Val → Bytes} (hp : Encoder put) {y0 : Sys}
    {es : List EnvEvent} {w : WireEnv} (h : EnvReachable put put' y0 es w) : EnvInv es w := by
  obtain ⟨⟨config, now, cycles, h0⟩, rfl⟩ := h
  have hpend : y0.pending = [] := by
    unfold Sys.init at h0
    obtain ⟨s, _, rfl⟩ := Option.map_eq_some_iff.mp h0
    rfl
  have := inv_run (put' := put') hp (es0 := []) (w := ⟨y0, .init, 0, []⟩)
    ⟨⟨config, now, cycles, y0, [], h0, rfl⟩, by simp [hpend], ⟨[], rfl, fun _ h => by cases h⟩,
      fun i x hx => by simp at hx⟩ es
  simpa using this

/-- **C116**: cycles are conserved: what the ledger has, what its outstanding calls carry, and what the
fake CMC has accepted are together changed by deposits and by withdrawals only; a deposit adds the
cycles attached if it is executed, a withdrawal that the management canister does not reject takes
away those it carries. -/
theorem C116_conserved [Crypto] {put put' : Candid.Ty × Val → Bytes} (hp : Encoder put) {y0 : Sys}
    {es : List EnvEvent} {w : WireEnv} (h : EnvReachable put put' y0 es w) (e : EnvEvent) :
    Spec.envCycles (w.step put put' e).1 = Spec.envCycles w + (match e with
      | .call _ c => match (w.step put put' e).2 with
        | .deposit _ _ => (c.cycles.val : Int)
        | _ => 0
      | .deposited _ i (.reply _) => match w.sys.pending[i]? with
        | some p => match p.call.body with
          | .depositCycles _ => -(p.call.cycles : Int)
          | .createCanister _ => 0
        | none => 0
      | _ => 0) := by
  have hi := h.inv hp
  cases e with
  | call dt c =>
    obtain ⟨l, hl, hc⟩ := receive_grow w.sys dt c
    have hu := onTheWay_append hi.len l
    simp only [WireEnv.step, Spec.envCycles, hl, List.length_append, Nat.add_sub_cancel_left, hu]
    simp only [Spec.paidIn] at hc
    generalize (w.sys.receive dt c).2 = rep at hc ⊢
    cases rep <;> simp only [] at hc ⊢ <;> omega
  | upgrade dt bs =>
    obtain ⟨h1, h2⟩ := upgrade_same w.sys dt bs
    simp only [WireEnv.step, Spec.envCycles, h1, h2]
    omega
  | order bs => simp only [WireEnv.step, Spec.envCycles]; omega
  | arrive i =>
    simp only [WireEnv.step, Int.add_zero]
    split
    · rename_i p hpp hs
      split
      · rename_i args _
        have := onTheWay_set hpp hs
          (w.cmc.begin (put (sentCall (.createCanister args)).2) p.call.cycles).2
        simp only [Spec.envCycles]
        omega
      · rfl
    · rfl
  | answer dt i mgmt =>
    simp only [WireEnv.step, Int.add_zero]
    split
    · rename_i p acc b hpp hs
      split
      · rename_i o ho
        obtain ⟨q, hq, hr⟩ := hi.seen i _ hs
        rw [hpp] at hq
        cases hq
        have hle := hr.le
        obtain ⟨args, _, _, _, ha, _⟩ := hr
        obtain ⟨_, e2, e3⟩ := respond_create hi.reach hpp ha dt (fakeResponse put' o) (p.call.cycles - acc)
        simp only [Spec.envCycles, e2, e3]
        rw [onTheWay_erase hpp hs]
        simp only [acceptedOf] at hle ⊢
        omega
      · rfl
    · rfl
  | deposited dt i r =>
    simp only [WireEnv.step]
    cases hpp : w.sys.pending[i]? with
    | none => cases r <;> simp [hpp]
    | some p =>
      cases ha : p.call.body with
      | createCanister a => cases r <;> simp [hpp, ha]
      | depositCycles to =>
        obtain ⟨_, e2, e3⟩ := respond_deposit hi.reach hpp ha dt r 0
        have hlt := (List.getElem?_eq_some_iff.mp hpp).1
        rw [← hi.len] at hlt
        have hs : w.seen[i]? = some w.seen[i] := List.getElem?_eq_getElem hlt
        have hn : acceptedOf w.seen[i] = 0 := by
          cases hx : w.seen[i] with
          | none => rfl
          | some x =>
            rw [hx] at hs
            obtain ⟨q, hq, args, _, _, _, hb, _⟩ := hi.seen i x hs
            rw [hpp] at hq
            cases hq
            rw [ha] at hb
            cases hb
        have hu := onTheWay_erase hpp hs
        rw [hn] at hu
        cases r with
        | reply bs => simp only [hpp, ha, Spec.envCycles, e2, e3]; omega
        | reject code => simp only [ha, Spec.envCycles, e2, e3]; omega

/-- The fake CMC returns what the ledger takes as returned. -/
theorem surplus_step [Crypto] {put put' : Candid.Ty × Val → Bytes} (hp' : Encoder put')
    {es : List EnvEvent} {w : WireEnv} (hi : EnvInv es w) (ho : Spec.FairOrders es) (e : EnvEvent)
    (hm : ∀ dt i mgmt, e = .answer dt i mgmt → MgmtAnswer.rejected ∉ mgmt) :
    Spec.surplus w.sys ≤ Spec.surplus (w.step put put' e).1.sys := by
  cases e with
  | call dt c => exact (receive_surplus hi.reach dt c).2
  | upgrade dt bs => exact (upgrade_surplus hi.reach dt bs).2
  | order bs => exact Int.le_refl _
  | arrive i =>
    simp only [WireEnv.step]
    split
    · split <;> exact Int.le_refl _
    · exact Int.le_refl _
  | answer dt i mgmt =>
    simp only [WireEnv.step]
    split
    · rename_i p acc b hpp hs
      split
      · rename_i o hob
        obtain ⟨q, hq, hr⟩ := hi.seen i _ hs
        rw [hpp] at hq
        cases hq
        have hresp := reached_sendable hr hob hp'
        obtain ⟨args, cs, bs, c', ha, hb, hcs, hbeg⟩ := hr
        obtain ⟨_, _, _, r, h1, _, _, _, h5, h6⟩ := C115_ledger hi.reach hpp ha
          (by rw [ha]; rfl) hb cs mgmt hbeg hob hresp dt
        simp only [h1]
        refine C07_surplus_kept hi.reach _ ?_
        intro i' r' refund' p' back he hp'' hback
        cases he
        rw [hpp] at hp''
        cases hp''
        have hon : o ≠ none := fun h => hm dt i mgmt rfl (h6 h)
        have := h5.mpr (by
          by_cases hn : p.call.cycles < 100000000000
          · exact .inl hn
          · refine .inr ⟨?_, hon⟩
            rintro q ⟨_, x, _, rfl, hx, _⟩
            cases x with
            | create => exact hx.elim
            | failNext b' =>
              have := ho b' q (hcs b' (by simp)) hx
              omega)
        rw [hback] at this
        exact Nat.le_of_eq this.symm
      · exact Int.le_refl _
    · exact Int.le_refl _
  | deposited dt i r =>
    simp only [WireEnv.step]
    split
    · rename_i p hpp
      split
      · rename_i to ha
        obtain ⟨e1, _⟩ := respond_deposit hi.reach hpp ha dt r 0
        simp only [e1]
        refine C07_surplus_kept hi.reach _ ?_
        intro _ _ _ _ _ he
        cases he
      · exact Int.le_refl _
    · exact Int.le_refl _

theorem surplus_run [Crypto] {put put' : Candid.Ty × Val → Bytes} (hp : Encoder put)
    (hp' : Encoder put') {es0 : List EnvEvent} {w : WireEnv} (hi : EnvInv es0 w) (es : List EnvEvent)
    (ho : Spec.FairOrders (es0 ++ es)) (hm : Spec.NoRejection es) :
    Spec.surplus w.sys ≤ Spec.surplus (w.run put put' es).sys := by
  induction es generalizing es0 w with
  | nil => exact Int.le_refl _
  | cons e es ih =>
    refine Int.le_trans (surplus_step (put := put) hp' hi (fun bs r hb => ho bs r (List.mem_append_left _ hb)) e
      (fun dt i mgmt he => hm dt i mgmt (by rw [he]; exact .head _))) ?_
    exact ih (inv_step (put' := put') hp hi e) (by simpa using ho)
      (fun dt i mgmt h => hm dt i mgmt (.tail _ h))

/-- **C116**: if the fake CMC is never told to claim a refund above the least number of cycles it takes,
and its creations are not rejected, the cycles of the ledger cover the total supply at all times, in
whatever order calls arrive and are answered. -/
theorem C116_solvent [Crypto] {put put' : Candid.Ty × Val → Bytes} (hp : Encoder put)
    (hp' : Encoder put') {y0 : Sys} {es : List EnvEvent} {w : WireEnv}
    (h : EnvReachable put put' y0 es w) (h0 : (icrc1TotalSupply y0.ledger : Int) ≤ y0.cycles)
    (ho : Spec.FairOrders es) (hm : Spec.NoRejection es) :
    (icrc1TotalSupply w.sys.ledger : Int) ≤ w.sys.cycles := by
  obtain ⟨hin, rfl⟩ := h
  have hi := EnvReachable.inv (put := put) (put' := put') (es := []) hp ⟨hin, rfl⟩
  have := surplus_run (put := put) (put' := put') hp hp' hi es (by simpa using ho) hm
  simp only [WireEnv.run, Spec.surplus] at this
  omega

/-- A creation ends well only if the CMC created the canister. -/
theorem finish_ok [Crypto] {s s' : State} {p : Suspended} {r : CmcResult} {now : Nat} {x : Nat × Principal}
    (h : createCanisterFinish s p r now = .ok x s') : r = .created x.2 ∧ x.1 = p.blockIndex := by
  unfold createCanisterFinish at h
  cases r with
  | created q =>
    simp only at h
    split at h
    · cases h
    · cases h
      exact ⟨rfl, rfl⟩
  | _ =>
    simp only at h
    split at h
    · cases h
    · split at h
      · cases h
      · cases h
      · split at h
        · cases h
        · split at h
          · split at h <;> cases h
          · cases h

/-- **C116**: whoever is told by the ledger that a canister was created has got one: the management
canister created it for the fake CMC, which took all cycles of the call for it. -/
theorem C116_created [Crypto] {put put' : Candid.Ty × Val → Bytes} (hp : Encoder put)
    (hp' : Encoder put') {y0 : Sys} {es : List EnvEvent} {w : WireEnv}
    (h : EnvReachable put put' y0 es w) {dt i : Nat} {mgmt : List MgmtAnswer} {n : Nat} {q : Principal}
    (hr : (w.step put put' (.answer dt i mgmt)).2 = .createCanister (.ok (n, q)) ∨
      (w.step put put' (.answer dt i mgmt)).2 = .createCanisterFrom (.ok (n, q))) :
    ∃ p args k rest, w.sys.pending[i]? = some p ∧ p.call.body = .createCanister args ∧
      w.seen[i]? = some (some (p.call.cycles, .creating args)) ∧
      mgmt = List.replicate k .taken ++ .created q :: rest ∧ n = p.data.blockIndex := by
  have hi := h.inv hp
  simp only [WireEnv.step] at hr
  split at hr
  · rename_i p acc b hpp hs
    split at hr
    · rename_i o hob
      obtain ⟨p', hq, hre⟩ := hi.seen i _ hs
      rw [hpp] at hq
      cases hq
      have hresp := reached_sendable hre hob hp'
      obtain ⟨args, cs, bs, c', ha, hb, hcs, hbeg⟩ := hre
      obtain ⟨_, hra, _, r, h1, h2, _, h4, _⟩ := C115_ledger hi.reach hpp ha
        (by rw [ha]; rfl) hb cs mgmt hbeg hob hresp dt
      have hcr : r = .created q ∧ n = p.data.blockIndex := by
        simp only [h1] at hr
        have ht : (w.sys.tick dt).pending[i]? = some p := hpp
        rcases (hi.reach.callOk p (List.mem_of_getElem? hpp)).body with ⟨_, _, to, hb', _⟩ | ⟨hk, _⟩
        · rw [ha] at hb'; cases hb'
        · rcases hk with hk | hk
          all_goals
            simp only [Sys.step, Sys.exec, ht, hk, finishCreate, Sys.commit] at hr
            generalize hf : createCanisterFinish _ p.data r _ = f at hr
            cases f with
            | trap => simp [Res.mapErr] at hr
            | err e s =>
              simp only [Res.mapErr] at hr
              try cases hz : createFromErrorToCreateError e <;> rw [hz] at hr
              all_goals rcases hr with hr | hr <;> cases hr
            | ok x s =>
              have := finish_ok hf
              simp [Res.mapErr] at hr
              subst hr
              exact this
      obtain ⟨rfl, hn⟩ := hcr
      obtain ⟨k1, k2⟩ := C115_answered cs hra mgmt hbeg hob
      have bad : ∀ e, Told o wFakeReply (.error e) → False := by
        intro e he
        have := h2 _ he
        cases e <;> cases this
      by_cases hlt : p.call.cycles < 100000000000
      · exact (bad _ (k1 hlt).1).elim
      · obtain ⟨k3, _, k5⟩ := k2 (by omega)
        by_cases hdue : ∃ e, Due cs e
        · obtain ⟨e, he⟩ := hdue
          exact (bad _ (k3 e he).1).elim
        · obtain ⟨g1, g2, k, rest, ⟨q', g3, g4⟩ | ⟨_, g4⟩⟩ := k5 (fun e he => hdue ⟨e, he⟩)
          · have := h2 _ g4
            cases this
            subst g1 g2
            exact ⟨p, args, k, rest, hpp, ha, hs, g3, hn⟩
          · have := h4 g4
            cases this
    · rcases hr with hr | hr <;> cases hr
  · rcases hr with hr | hr <;> cases hr

/-- **C116**: once the management canister has created the canister that the fake CMC asks for, the
caller is told of it and of the block of the burn. -/
theorem C116_told [Crypto] {put put' : Candid.Ty × Val → Bytes} (hp : Encoder put)
    (hp' : Encoder put') {y0 : Sys} {es : List EnvEvent} {w : WireEnv}
    (h : EnvReachable put put' y0 es w) {i accepted : Nat} {p : Pending} {args : CmcArgs}
    (hpp : w.sys.pending[i]? = some p) (hs : w.seen[i]? = some (some (accepted, .creating args)))
    (dt k : Nat) (q : Principal) (rest : List MgmtAnswer) :
    (p.kind = .createCanister ∧
      (w.step put put' (.answer dt i (List.replicate k .taken ++ .created q :: rest))).2 =
        .createCanister (.ok (p.data.blockIndex, q))) ∨
    (p.kind = .createCanisterFrom ∧
      (w.step put put' (.answer dt i (List.replicate k .taken ++ .created q :: rest))).2 =
        .createCanisterFrom (.ok (p.data.blockIndex, q))) := by
  have hi := h.inv hp
  obtain ⟨p', hq, hre⟩ := hi.seen i _ hs
  rw [hpp] at hq
  cases hq
  obtain ⟨a, _, _, _, ha, _⟩ := hre
  have hl : ∀ k, createLoop (List.replicate k .taken ++ .created q :: rest) =
      some (some (tyFakeReply, putFakeReply (.ok q))) := by
    intro k
    induction k with
    | zero => rfl
    | succ k ih => exact ih
  have hr : Responds (some (tyFakeReply, putFakeReply (.ok q)))
      (fakeResponse put' (some (tyFakeReply, putFakeReply (.ok q)))) :=
    hp' _ _ (message_of_wf good_fakeReply.wf (good_fakeReply.typed _))
  have ho := outcome_fake (z := .ok q) (fun _ h => nomatch h) hr
  simp only [WireEnv.step, hpp, hs, Begun.answer, hl]
  rw [(respond_create hi.reach hpp ha dt _ _).1, ho]
  have ht : (w.sys.tick dt).pending[i]? = some p := hpp
  rcases (hi.reach.callOk p (List.mem_of_getElem? hpp)).body with ⟨_, _, to, hb', _⟩ | ⟨hk, _⟩
  · rw [ha] at hb'; cases hb'
  · rcases hk with hk | hk
    · refine .inl ⟨hk, ?_⟩
      simp only [Sys.step, Sys.exec, ht, hk, finishCreate, createCanisterFinish, outcomeOf,
        Transaction.hash_eq, Res.mapErr, Sys.commit]
    · refine .inr ⟨hk, ?_⟩
      simp only [Sys.step, Sys.exec, ht, hk, finishCreate, createCanisterFinish, outcomeOf,
        Transaction.hash_eq, Sys.commit]

/-- **C116**: when the fake CMC refuses, for too few cycles or as ordered, the account that paid for the
canister gets what it claims to return less the fee, if that is positive, and the caller is told of the
blocks; the claim is true unless it is above the cycles of the call. -/
theorem C116_refused [Crypto] {put put' : Candid.Ty × Val → Bytes} (hp : Encoder put)
    (hp' : Encoder put') {y0 : Sys} {es : List EnvEvent} {w : WireEnv}
    (h : EnvReachable put put' y0 es w) {i accepted r : Nat} {text : Bytes} {p : Pending}
    (hpp : w.sys.pending[i]? = some p) (hk : p.kind = .createCanister)
    (hs : w.seen[i]? = some (some (accepted, .failed (.refunded (r, text)))))
    (hsup : icrc1TotalSupply w.sys.ledger + r < 2 ^ 128) (dt : Nat) (mgmt : List MgmtAnswer) :
    (r ≤ p.call.cycles → accepted + r = p.call.cycles) ∧
    (w.step put put' (.answer dt i mgmt)).1.sys.cycles = w.sys.cycles + (p.call.cycles - accepted : Nat) ∧
    (∀ a : Account, icrc1BalanceOf (w.step put put' (.answer dt i mgmt)).1.sys.ledger a =
      icrc1BalanceOf w.sys.ledger a + (if Spec.SameAccount a p.data.frm then r - 100000000 else 0)) ∧
    Spec.failedBlocks (w.step put put' (.answer dt i mgmt)).2 = some (some p.data.blockIndex,
      if r ≤ 100000000 then none else some w.sys.ledger.blocks.length, none) := by
  have hi := h.inv hp
  obtain ⟨p', hq, hre⟩ := hi.seen i _ hs
  rw [hpp] at hq
  cases hq
  obtain ⟨a, cs, bs, c', ha, hb, _, hbeg⟩ := hre
  have hd : decode desCmcArgs bs = some a := decode_reads reads_cmcArgs hb (good_cmcArgs.ok a trivial)
  refine ⟨?_, ?_⟩
  · intro hle
    rw [begin_some hd] at hbeg
    split at hbeg
    · cases hbeg; omega
    · split at hbeg
      · cases hbeg
        simp only [wrapSub128, if_pos hle]
        omega
      · cases hbeg
      · cases hbeg
  · have hr : Responds (some (tyFakeReply, putFakeReply (.error (.refunded (r, text)))))
        (fakeResponse put' (some (tyFakeReply, putFakeReply (.error (.refunded (r, text)))))) :=
      hp' _ _ (message_of_wf good_fakeReply.wf (good_fakeReply.typed _))
    have ho := outcome_fake (z := .error (.refunded (r, text))) (fun q h => by cases h; simp only; omega) hr
    simp only [WireEnv.step, hpp, hs, Begun.answer]
    obtain ⟨g1, _, g3⟩ := respond_create hi.reach hpp ha dt
      (fakeResponse put' (some (tyFakeReply, putFakeReply (.error (.refunded (r, text))))))
      (p.call.cycles - accepted)
    refine ⟨g3, ?_⟩
    rw [g1, ho]
    have ht : (w.sys.tick dt).pending[i]? = some p := hpp
    have hret : Spec.returned p (.cmc (outcomeOf (.error (.refunded (r, text))))
        (p.call.cycles - accepted)) = some r := rfl
    have hnt := C25_own_account (hi.reach.tick dt) (ans := .cmc (outcomeOf (.error (.refunded (r, text))))
      (p.call.cycles - accepted)) ht (.inr hk) (by
        intro back hb
        rw [hret] at hb
        cases hb
        have : icrc1TotalSupply (w.sys.tick dt).ledger = icrc1TotalSupply w.sys.ledger := rfl
        omega)
    unfold Sys.step
    rcases exec_callback_failed (hi.reach.tick dt).inv ht
      (ans := .cmc (outcomeOf (.error (.refunded (r, text)))) (p.call.cycles - accepted)) (Or.inl hk) hret with
      ⟨h1, _⟩ | ⟨fb, ab, s', h1, h2, _, _, _, _, h3⟩
    · rw [h1] at hnt; exact absurd rfl hnt
    · rw [h1, h3, hk]
      simp only [reported]
      rcases h2 with ⟨hle, rfl, rfl, rfl⟩ | ⟨hgt, rfl, rfl, he, _⟩ | ⟨_, _, _, sp, _, hra, _⟩
      · refine ⟨?_, by rw [if_pos hle]⟩
        intro a
        split
        · rw [Nat.sub_eq_zero_of_le hle]; rfl
        · rfl
      · refine ⟨he.mint.1, ?_⟩
        rw [if_neg (by omega)]
        rfl
      · have := hra.1.1
        rw [(hi.reach.callOk p (List.mem_of_getElem? hpp)).own (.inr hk)] at this
        cases this

/-- **C116**: when the fake CMC keeps the cycles as ordered, none come back, the ledger does not change,
and the caller is told of the block of the burn alone. -/
theorem C116_kept [Crypto] {put put' : Candid.Ty × Val → Bytes} (hp : Encoder put)
    (hp' : Encoder put') {y0 : Sys} {es : List EnvEvent} {w : WireEnv}
    (h : EnvReachable put put' y0 es w) {i accepted : Nat} {text : Bytes × Bytes} {p : Pending}
    (hpp : w.sys.pending[i]? = some p)
    (hs : w.seen[i]? = some (some (accepted, .failed (.refundFailed text)))) (dt : Nat)
    (mgmt : List MgmtAnswer) :
    accepted = p.call.cycles ∧
    (w.step put put' (.answer dt i mgmt)).1.sys.cycles = w.sys.cycles ∧
    (w.step put put' (.answer dt i mgmt)).1.sys.ledger = w.sys.ledger ∧
    Spec.failedBlocks (w.step put put' (.answer dt i mgmt)).2 =
      some (some p.data.blockIndex, none, none) := by
  have hi := h.inv hp
  obtain ⟨p', hq, hre⟩ := hi.seen i _ hs
  rw [hpp] at hq
  cases hq
  obtain ⟨a, cs, bs, c', ha, hb, _, hbeg⟩ := hre
  have hd : decode desCmcArgs bs = some a := decode_reads reads_cmcArgs hb (good_cmcArgs.ok a trivial)
  have hacc : accepted = p.call.cycles := by
    rw [begin_some hd] at hbeg
    split at hbeg
    · cases hbeg
    · split at hbeg <;> cases hbeg
      rfl
  refine ⟨hacc, ?_⟩
  subst hacc
  have hr : Responds (some (tyFakeReply, putFakeReply (.error (.refundFailed text))))
      (fakeResponse put' (some (tyFakeReply, putFakeReply (.error (.refundFailed text))))) :=
    hp' _ _ (message_of_wf good_fakeReply.wf (good_fakeReply.typed _))
  have ho := outcome_fake (z := .error (.refundFailed text)) (fun q h => by cases h) hr
  simp only [WireEnv.step, hpp, hs, Begun.answer, Nat.sub_self]
  obtain ⟨g1, _, g3⟩ := respond_create hi.reach hpp ha dt
    (fakeResponse put' (some (tyFakeReply, putFakeReply (.error (.refundFailed text))))) 0
  refine ⟨by rw [g3]; exact Int.add_zero _, ?_⟩
  rw [g1, ho]
  have ht : (w.sys.tick dt).pending[i]? = some p := hpp
  have hl : (w.sys.tick dt).ledger = w.sys.ledger := rfl
  rcases (hi.reach.callOk p (List.mem_of_getElem? hpp)).body with ⟨_, _, to, hb', _⟩ | ⟨hk, _⟩
  · rw [ha] at hb'; cases hb'
  · rcases hk with hk | hk <;>
    simp [Sys.step, Sys.exec, ht, hk, finishCreate, createCanisterFinish, outcomeOf, satSub, Res.mapErr,
      Sys.commit, createFromErrorToCreateError, Spec.failedBlocks, hl]

theorem envRun_append [Crypto] (put put' : Candid.Ty × Val → Bytes) (w : WireEnv) (es es' : List EnvEvent) :
    w.run put put' (es ++ es') = (w.run put put' es).run put put' es' := by
  induction es generalizing w with
  | nil => rfl
  | cons e es ih => exact ih _

theorem EnvReachable.run [Crypto] {put put' : Candid.Ty × Val → Bytes} {y0 : Sys} {es : List EnvEvent}
    {w : WireEnv} (h : EnvReachable put put' y0 es w) (es' : List EnvEvent) :
    EnvReachable put put' y0 (es ++ es') (w.run put put' es') :=
  ⟨h.1, by rw [envRun_append, ← h.2]⟩

/-- A call that the fake CMC has got can be answered. -/
theorem answer_erases [Crypto] {put put' : Candid.Ty × Val → Bytes} (hp : Encoder put) {y0 : Sys}
    {es : List EnvEvent} {w : WireEnv} (h : EnvReachable put put' y0 es w) {i : Nat} {x : Nat × Begun}
    (hs : w.seen[i]? = some (some x)) (dt : Nat) (q : Principal) :
    (w.step put put' (.answer dt i [.created q])).1.sys.pending = w.sys.pending.eraseIdx i := by
  have hi := h.inv hp
  obtain ⟨p, hpp, hre⟩ := hi.seen i _ hs
  obtain ⟨a, _, _, _, ha, _⟩ := hre
  obtain ⟨acc, b⟩ := x
  have hb : ∃ o, b.answer [.created q] = some o := by
    cases b
    · exact ⟨_, rfl⟩
    · exact ⟨_, rfl⟩
    · exact ⟨_, rfl⟩
  obtain ⟨o, hb⟩ := hb
  simp only [WireEnv.step, hpp, hs, hb]
  exact (respond_create hi.reach hpp ha dt _ _).2.1

/-- **C116**: no call of the ledger can get stuck: whatever has happened, if the calls arrive and are
answered, with at most two events for each, nothing is outstanding in the end. -/
theorem C116_settles [Crypto] {put put' : Candid.Ty × Val → Bytes} (hp : Encoder put) {y0 : Sys}
    {es : List EnvEvent} {w : WireEnv} (h : EnvReachable put put' y0 es w) (dt : Nat) (q : Principal)
    (r : Response) :
    ∃ es', (∀ e ∈ es', ∃ i, e = .arrive i ∨ e = .answer dt i [.created q] ∨ e = .deposited dt i r) ∧
      (w.run put put' es').sys.pending = [] ∧ (w.run put put' es').seen = [] ∧
      es'.length ≤ 2 * w.sys.pending.length := by
  generalize hn : w.sys.pending.length = n
  induction n generalizing w es with
  | zero =>
    have hl := (h.inv hp).len
    exact ⟨[], by simp, List.eq_nil_of_length_eq_zero hn,
      List.eq_nil_of_length_eq_zero (by rw [WireEnv.run, hl, hn]), by simp⟩
  | succ n ih =>
    have hi := h.inv hp
    obtain ⟨p, hpp⟩ : ∃ p, w.sys.pending[0]? = some p := ⟨_, List.getElem?_eq_getElem (by omega)⟩
    obtain ⟨s, hs⟩ : ∃ s, w.seen[0]? = some s :=
      ⟨_, List.getElem?_eq_getElem (by have := hi.len; omega)⟩
    have hlen : (w.sys.pending.eraseIdx 0).length = n := by
      rw [List.length_eraseIdx, if_pos (by omega)]; omega
    have go : ∀ es1, (∀ e ∈ es1, ∃ i, e = .arrive i ∨ e = .answer dt i [.created q] ∨
        e = .deposited dt i r) → es1.length ≤ 2 →
        (w.run put put' es1).sys.pending = w.sys.pending.eraseIdx 0 →
        ∃ es', (∀ e ∈ es', ∃ i, e = .arrive i ∨ e = .answer dt i [.created q] ∨
          e = .deposited dt i r) ∧ (w.run put put' es').sys.pending = [] ∧
          (w.run put put' es').seen = [] ∧ es'.length ≤ 2 * (n + 1) := by
      intro es1 g1 g2 g3
      obtain ⟨es2, k1, k2, k3, k4⟩ := ih (h.run es1) (by rw [g3, hlen])
      refine ⟨es1 ++ es2, ?_, ?_, ?_, ?_⟩
      · intro e he
        rcases List.mem_append.mp he with he | he
        · exact g1 e he
        · exact k1 e he
      · rw [envRun_append]; exact k2
      · rw [envRun_append]; exact k3
      · rw [List.length_append]; omega
    cases hb : p.call.body with
    | depositCycles to =>
      refine go [.deposited dt 0 r] (fun e he => ⟨0, .inr (.inr (List.mem_singleton.mp he))⟩) (by simp) ?_
      simp only [WireEnv.run, WireEnv.step, hpp, hb]
      exact (respond_deposit hi.reach hpp hb dt r 0).2.1
    | createCanister args =>
      cases s with
      | some x =>
        exact go [.answer dt 0 [.created q]] (fun e he => ⟨0, .inr (.inl (List.mem_singleton.mp he))⟩)
          (by simp) (answer_erases hp h hs dt q)
      | none =>
        refine go [.arrive 0, .answer dt 0 [.created q]] ?_ (by simp) ?_
        · intro e he
          rcases List.mem_cons.mp he with he | he
          · exact ⟨0, .inl he⟩
          · exact ⟨0, .inr (.inl (List.mem_singleton.mp he))⟩
        · have h1 := h.run [.arrive 0]
          have e1 : (w.run put put' [.arrive 0]).sys = w.sys ∧ ∃ x,
              (w.run put put' [.arrive 0]).seen[0]? = some (some x) := by
            simp only [WireEnv.run, WireEnv.step, hpp, hs, hb]
            exact ⟨trivial, _, List.getElem?_set_self (by have := hi.len; omega)⟩
          obtain ⟨e1, x, e2⟩ := e1
          have := answer_erases hp h1 e2 dt q
          rw [e1] at this
          exact this

/-- One who deposits 10^12 cycles (`(record { to = record { owner = principal … } })`), asks for canisters with
2·10^11 and 3·10^11 cycles (`(record { amount = … })`), and has told the fake CMC to return 5·10^10. -/
def Toy.envEvents : List EnvEvent :=
  [.call 1 ⟨"deposit", Toy.alice, ⟨1000000000000, by decide +kernel⟩,
      [68, 73, 68, 76, 2, 108, 1, 179, 176, 218, 195, 3, 104, 108, 1, 251, 202, 1, 0, 1, 1, 1, 1, 1], none⟩,
    .call 1 ⟨"create_canister", Toy.alice, 0,
      [68, 73, 68, 76, 1, 108, 1, 216, 163, 140, 168, 13, 125, 1, 0, 128, 160, 183, 135, 233, 5], none⟩,
    .call 1 ⟨"create_canister", Toy.alice, 0,
      [68, 73, 68, 76, 1, 108, 1, 216, 163, 140, 168, 13, 125, 1, 0, 128, 240, 146, 203, 221, 8], none⟩,
    .order [68, 73, 68, 76, 2, 107, 1, 247, 141, 171, 203, 2, 1, 108, 2, 133, 190, 199, 230, 5, 113, 255,
      251, 189, 206, 7, 125, 1, 0, 0, 2, 110, 111, 128, 232, 237, 161, 186, 1]]

theorem arrive_eq [Crypto] {put put' : Candid.Ty × Val → Bytes} (hp : Encoder put) {w : WireEnv} {i : Nat}
    {args : CmcArgs} {n : Nat}
    (hpp : (w.sys.pending[i]?).map (fun p => (p.call.body, p.call.cycles)) = some (.createCanister args, n))
    (hs : w.seen[i]? = some none) : ∃ bs, decode desCmcArgs bs = some args ∧
    (w.step put put' (.arrive i)).1 = { w with
      cmc := (w.cmc.begin bs n).1, kept := w.kept + (w.cmc.begin bs n).2.1
      seen := w.seen.set i (some (w.cmc.begin bs n).2) } := by
  obtain ⟨p, h1, h2⟩ := Option.map_eq_some_iff.mp hpp
  cases h2' : p.call.body with
  | depositCycles to => rw [h2'] at h2; cases h2
  | createCanister a =>
    rw [h2'] at h2
    cases h2
    have hb : IsMessage (put (sentCall (.createCanister args)).2) [(tyCmcArgs, putCmcArgs args)] :=
      hp _ _ (message_of_wf good_cmcArgs.wf (good_cmcArgs.typed args))
    refine ⟨_, decode_reads reads_cmcArgs hb (good_cmcArgs.ok args trivial), ?_⟩
    simp only [WireEnv.step, h1, hs, h2']

theorem two_of_map {α β : Type} {f : α → β} {l : List α} {b c : β} (h : l.map f = [b, c]) :
    ∃ x y, l = [x, y] ∧ f x = b ∧ f y = c := by
  match l, h with
  | [x, y], h => cases h; exact ⟨x, y, rfl, rfl, rfl⟩

open Toy in
/-- With any encoders, after both calls have reached the fake CMC, the second one first, it holds
45·10^10 cycles, the second one is refused as ordered, and the caller is told of the canister once it is
created. -/
example {put put' : Candid.Ty × Val → Bytes} (hp : Encoder put) (hp' : Encoder put') :
    ∃ w, EnvReachable put put' start (envEvents ++ [.arrive 1, .arrive 0]) w ∧
      (icrc1TotalSupply start.ledger : Int) ≤ start.cycles ∧
      Spec.FairOrders (envEvents ++ [.arrive 1, .arrive 0]) ∧
      Spec.NoRejection (envEvents ++ [.arrive 1, .arrive 0]) ∧ w.kept = 450000000000 ∧
      Spec.onTheWay w.sys.pending w.seen = 50000000000 ∧
      w.seen = [some (200000000000, .creating (cmcArgument none alice)),
        some (250000000000, .failed (.refunded (50000000000, [110, 111])))] ∧
      w.sys.pending.map Pending.kind = [.createCanister, .createCanister] ∧
      icrc1TotalSupply w.sys.ledger + 50000000000 < 2 ^ 128 ∧
      (w.step put put' (.answer 1 0 [.taken, .created bob])).2 = .createCanister (.ok (1, bob)) := by
  refine ⟨_, ⟨⟨cfg, T, 0, start_eq⟩, rfl⟩, by decide +kernel, ?_, ?_, ?_⟩
  · intro bs r hb hr
    simp only [envEvents, List.cons_append, List.nil_append, List.mem_cons, List.not_mem_nil, or_false, reduceCtorEq,
      false_or, EnvEvent.order.injEq] at hb
    subst hb
    have := (failure_iff _ _).mpr hr
    have h2 : decode desCmcErrorWith [68, 73, 68, 76, 2, 107, 1, 247, 141, 171, 203, 2, 1, 108, 2, 133, 190,
      199, 230, 5, 113, 255, 251, 189, 206, 7, 125, 1, 0, 0, 2, 110, 111, 128, 232, 237, 161, 186, 1] =
        some (.refunded (50000000000, [110, 111])) := by decide +kernel
    rw [h2] at this
    cases this
    decide
  · intro dt i mgmt hm
    simp [envEvents] at hm
  · have hrun : ∀ (w : WireEnv) (es : List EnvEvent), w.run put put' (es ++ [.arrive 1, .arrive 0]) =
        (((w.run put put' es).step put put' (.arrive 1)).1.step put put' (.arrive 0)).1 := by
      intro w es
      induction es generalizing w with
      | nil => rfl
      | cons e es ih => exact ih _
    rw [hrun]
    generalize hw : WireEnv.run put put' ⟨start, .init, 0, []⟩ envEvents = w
    have hw' : WireEnv.run (fun _ => []) (fun _ => []) ⟨start, .init, 0, []⟩ envEvents = w := by
      rw [← hw]
      simp only [envEvents, WireEnv.run, WireEnv.step]
    have h1 : (w.sys.pending.map (fun p => (p.call.body, p.call.cycles))) =
        [(.createCanister (cmcArgument none alice), 200000000000),
          (.createCanister (cmcArgument none alice), 300000000000)] := by subst hw'; decide +kernel
    have h2 : w.seen = [none, none] := by subst hw'; decide +kernel
    have h3 : w.cmc = ⟨none, some (.refunded (50000000000, [110, 111]))⟩ := by subst hw'; decide +kernel
    have h4 : w.kept = 0 := by subst hw'; rfl
    have h7 : w.sys.pending.map Pending.kind = [.createCanister, .createCanister] := by
      subst hw'; decide +kernel
    have h8 : icrc1TotalSupply w.sys.ledger + 50000000000 < 2 ^ 128 := by subst hw'; decide +kernel
    obtain ⟨bs, hd, e1⟩ := arrive_eq (put' := put') hp (w := w) (i := 1)
      (args := cmcArgument none alice) (n := 300000000000)
      (by rw [← List.getElem?_map, h1]; rfl) (by rw [h2]; rfl)
    rw [begin_some hd, if_neg (by decide), h3] at e1
    obtain ⟨bs', hd', e2⟩ := arrive_eq (put' := put') hp (w := (w.step put put' (.arrive 1)).1) (i := 0)
      (args := cmcArgument none alice) (n := 200000000000)
      (by rw [e1, ← List.getElem?_map, h1]; rfl) (by rw [e1, h2]; rfl)
    rw [begin_some hd', if_neg (by decide), e1] at e2
    rw [e1, e2]
    have h5 : (w.sys.step ⟨1, .callback 0 (.cmc (.created bob) 0)⟩).2 = .createCanister (.ok (1, bob)) := by
      subst hw'; decide +kernel
    have h6 : Reachable w.sys := by
      have := EnvReachable.inv (put := put) (put' := put') hp
        ⟨⟨cfg, T, 0, start_eq⟩, rfl⟩ (y0 := start) (es := envEvents)
      rw [hw] at this
      exact this.reach
    clear hw' hw
    obtain ⟨p1, p2, hq, b1, b2⟩ := two_of_map h1
    obtain ⟨b1, c1⟩ := Prod.mk.inj b1
    obtain ⟨_, c2⟩ := Prod.mk.inj b2
    have hx : w.sys.pending[0]? = some p1 := by rw [hq]; rfl
    refine ⟨?_, ?_, ?_, h7, h8, ?_⟩
    · simp only [h4]; decide +kernel
    · simp only [h2, hq, List.set, Spec.onTheWay, c1, c2]; decide +kernel
    · simp only [h2, List.set]; rfl
    · have hr : Responds (some (tyFakeReply, putFakeReply (.ok bob)))
          (fakeResponse put' (some (tyFakeReply, putFakeReply (.ok bob)))) :=
        hp' _ _ (message_of_wf good_fakeReply.wf (good_fakeReply.typed _))
      have ho := outcome_fake (z := .ok bob) (fun _ h => nomatch h) hr
      simp only [WireEnv.step, h2, List.set, hx, List.getElem?_cons_zero, Begun.answer, createLoop, c1,
        Nat.sub_self]
      rw [(respond_create h6 hx b1 1 _ 0).1, ho]
      exact h5

/-- The deposit and the first request of `Toy.envEvents`, and an order to claim that 10^12 cycles are
returned. -/
def Toy.unfairEvents : List EnvEvent :=
  Toy.envEvents.take 2 ++ [.order [68, 73, 68, 76, 2, 107, 1, 247, 141, 171, 203, 2, 1, 108, 2, 133, 190, 199,
    230, 5, 113, 255, 251, 189, 206, 7, 125, 1, 0, 0, 2, 110, 111, 128, 160, 148, 165, 141, 29]]

theorem one_of_map {α β : Type} {f : α → β} {l : List α} {b : β} (h : l.map f = [b]) :
    ∃ x, l = [x] ∧ f x = b := by
  match l, h with
  | [x], h => cases h; exact ⟨x, rfl, rfl⟩

open Toy in
/-- **C116**, the orders have to be fair: the fake CMC can be told to claim a refund that it does not make,
and the ledger then owes more than it has. -/
theorem C116_unfair {put put' : Candid.Ty × Val → Bytes} (hp : Encoder put) (hp' : Encoder put') :
    ∃ es w, EnvReachable put put' start es w ∧ (icrc1TotalSupply start.ledger : Int) ≤ start.cycles ∧
      Spec.NoRejection es ∧ w.sys.cycles < (icrc1TotalSupply w.sys.ledger : Int) := by
  refine ⟨unfairEvents ++ [.arrive 0, .answer 1 0 []], _, ⟨⟨cfg, T, 0, start_eq⟩, rfl⟩,
    by decide +kernel, ?_, ?_⟩
  · intro dt i mgmt hm
    simp [unfairEvents, envEvents] at hm
    simp [hm.2.2]
  · rw [envRun_append]
    generalize hw : WireEnv.run put put' ⟨start, .init, 0, []⟩ unfairEvents = w
    have hw' : WireEnv.run (fun _ => []) (fun _ => []) ⟨start, .init, 0, []⟩ unfairEvents = w := by
      rw [← hw]
      simp only [unfairEvents, envEvents, List.take, List.cons_append, List.nil_append, WireEnv.run, WireEnv.step]
    have h1 : (w.sys.pending.map (fun p => (p.call.body, p.call.cycles))) =
        [(.createCanister (cmcArgument none alice), 200000000000)] := by subst hw'; decide +kernel
    have h2 : w.seen = [none] := by subst hw'; decide +kernel
    have h3 : w.cmc = ⟨none, some (.refunded (1000000000000, [110, 111]))⟩ := by subst hw'; decide +kernel
    have h5 : (w.sys.step ⟨1, .callback 0 (.cmc (.refunded 1000000000000) 0)⟩).1.cycles <
        (icrc1TotalSupply (w.sys.step ⟨1, .callback 0 (.cmc (.refunded 1000000000000) 0)⟩).1.ledger : Int) := by
      subst hw'; decide +kernel
    have h6 : Reachable w.sys := by
      have := EnvReachable.inv (put := put) (put' := put') hp
        ⟨⟨cfg, T, 0, start_eq⟩, rfl⟩ (y0 := start) (es := unfairEvents)
      rw [hw] at this
      exact this.reach
    clear hw' hw
    obtain ⟨p, hq, b⟩ := one_of_map h1
    obtain ⟨b, c⟩ := Prod.mk.inj b
    have hx : w.sys.pending[0]? = some p := by rw [hq]; rfl
    obtain ⟨bs, hd, e1⟩ := arrive_eq (put' := put') hp (w := w) (i := 0)
      (args := cmcArgument none alice) (n := 200000000000)
      (by rw [← List.getElem?_map, h1]; rfl) (by rw [h2]; rfl)
    rw [begin_some hd, if_neg (by decide), h3] at e1
    have hr : Responds (some (tyFakeReply, putFakeReply (.error (.refunded (1000000000000, [110, 111])))))
        (fakeResponse put' (some (tyFakeReply, putFakeReply (.error (.refunded (1000000000000, [110, 111])))))) :=
      hp' _ _ (message_of_wf good_fakeReply.wf (good_fakeReply.typed _))
    have ho := outcome_fake (z := .error (.refunded (1000000000000, [110, 111])))
      (fun _ h => by cases h; decide) hr
    have hm : min 200000000000 (wrapSub128 200000000000 1000000000000) = 200000000000 := by decide +kernel
    simp only [WireEnv.run]
    rw [e1]
    simp only [WireEnv.step, h2, List.set, hx, List.getElem?_cons_zero, Begun.answer, c, hm, Nat.sub_self]
    rw [(respond_create h6 hx b 1 _ 0).1, ho]
    exact h5

open Toy in
/-- **C116**, the management canister must not reject: the fake CMC then traps with the cycles accepted,
and the ledger returns them to the caller all the same. -/
theorem C116_rejected {put put' : Candid.Ty × Val → Bytes} (hp : Encoder put) :
    ∃ es w, EnvReachable put put' start es w ∧ (icrc1TotalSupply start.ledger : Int) ≤ start.cycles ∧
      Spec.FairOrders es ∧ w.sys.cycles < (icrc1TotalSupply w.sys.ledger : Int) := by
  refine ⟨envEvents.take 2 ++ [.arrive 0, .answer 1 0 [.rejected]], _, ⟨⟨cfg, T, 0, start_eq⟩, rfl⟩,
    by decide +kernel, ?_, ?_⟩
  · intro bs r hb
    simp [envEvents] at hb
  · rw [envRun_append]
    generalize hw : WireEnv.run put put' ⟨start, .init, 0, []⟩ (envEvents.take 2) = w
    have hw' : WireEnv.run (fun _ => []) (fun _ => []) ⟨start, .init, 0, []⟩ (envEvents.take 2) = w := by
      rw [← hw]
      simp only [envEvents, List.take, WireEnv.run, WireEnv.step]
    have h1 : (w.sys.pending.map (fun p => (p.call.body, p.call.cycles))) =
        [(.createCanister (cmcArgument none alice), 200000000000)] := by subst hw'; decide +kernel
    have h2 : w.seen = [none] := by subst hw'; decide +kernel
    have h3 : w.cmc = ⟨none, none⟩ := by subst hw'; decide +kernel
    have h5 : (w.sys.step ⟨1, .callback 0 (.cmc (cmcOutcome (.reject (some .canisterError))) 0)⟩).1.cycles <
        (icrc1TotalSupply
          (w.sys.step ⟨1, .callback 0 (.cmc (cmcOutcome (.reject (some .canisterError))) 0)⟩).1.ledger : Int) := by
      subst hw'; decide +kernel
    have h6 : Reachable w.sys := by
      have := EnvReachable.inv (put := put) (put' := put') hp
        ⟨⟨cfg, T, 0, start_eq⟩, rfl⟩ (y0 := start) (es := envEvents.take 2)
      rw [hw] at this
      exact this.reach
    clear hw' hw
    obtain ⟨p, hq, b⟩ := one_of_map h1
    obtain ⟨b, c⟩ := Prod.mk.inj b
    have hx : w.sys.pending[0]? = some p := by rw [hq]; rfl
    obtain ⟨bs, hd, e1⟩ := arrive_eq (put' := put') hp (w := w) (i := 0)
      (args := cmcArgument none alice) (n := 200000000000)
      (by rw [← List.getElem?_map, h1]; rfl) (by rw [h2]; rfl)
    rw [begin_some hd, if_neg (by decide), h3] at e1
    simp only [WireEnv.run]
    rw [e1]
    simp only [WireEnv.step, h2, List.set, hx, List.getElem?_cons_zero, Begun.answer, createLoop, c, Nat.sub_self,
      fakeResponse]
    rw [(respond_create h6 hx b 1 _ 0).1]
    exact h5

open Toy in
/-- A request reaches the fake CMC after an order to keep the cycles
(`(variant { RefundFailed = record { create_error = "a"; refund_error = "b" } })`). -/
example {put put' : Candid.Ty × Val → Bytes} (hp : Encoder put) :
    ∃ w p, EnvReachable put put' start (envEvents.take 2 ++ [.order [68, 73, 68, 76, 2, 107, 1, 245, 168, 211, 221, 13,
        1, 108, 2, 133, 190, 199, 230, 5, 113, 129, 195, 129, 177, 6, 113, 1, 0, 0, 1, 97, 1, 98]] ++ [.arrive 0]) w ∧
      w.sys.pending[0]? = some p ∧
      w.seen[0]? = some (some (200000000000, .failed (.refundFailed ([97], [98])))) := by
  generalize hes : envEvents.take 2 ++ [EnvEvent.order _] = es
  generalize hw : WireEnv.run put put' ⟨start, .init, 0, []⟩ es = w
  have hw' : WireEnv.run (fun _ => []) (fun _ => []) ⟨start, .init, 0, []⟩ es = w := by
    rw [← hw, ← hes]
    simp only [envEvents, List.take, List.cons_append, List.nil_append, WireEnv.run, WireEnv.step]
  have h1 : (w.sys.pending.map (fun p => (p.call.body, p.call.cycles))) =
      [(.createCanister (cmcArgument none alice), 200000000000)] := by
    subst hw'; subst hes; decide +kernel
  have h2 : w.seen = [none] := by subst hw'; subst hes; decide +kernel
  have h3 : w.cmc = ⟨none, some (.refundFailed ([97], [98]))⟩ := by subst hw'; subst hes; decide +kernel
  clear hw'
  obtain ⟨p, hq, b⟩ := one_of_map h1
  obtain ⟨bs, hd, e1⟩ := arrive_eq (put' := put') hp (w := w) (i := 0)
    (args := cmcArgument none alice) (n := 200000000000)
    (by rw [← List.getElem?_map, h1]; rfl) (by rw [h2]; rfl)
  rw [begin_some hd, if_neg (by decide), h3] at e1
  refine ⟨(w.step put put' (.arrive 0)).1, p, ⟨⟨cfg, T, 0, start_eq⟩, ?_⟩, ?_, ?_⟩
  · rw [envRun_append, hw]; rfl
  · rw [e1, hq]; rfl
  · rw [e1, h2]; rfl

end CyclesLedger
