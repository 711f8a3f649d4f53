import Verif.Proof.Pending
import Verif.Spec.Machine
import Verif.Props.Accounting
import Verif.Props.Requests
/-!
# Burns and their outgoing calls; block indices in answers

C26, C29, C30.
-/
namespace CyclesLedger

/-! ## C26 -/

/-- Where a burn's cycles are sent: to the management canister's `deposit_cycles` for the
canister named, or to the cycles minting canister (`rkp4c-7iaaa-aaaaa-aaaca-cai`). -/
def Spec.SentTo (call : OutCall) : Option Principal → Prop
  | some to => call.callee.bytes = [] ∧ call.body = .depositCycles to
  | none => call.callee.bytes = [0, 0, 0, 0, 0, 0, 0, 4, 1, 1] ∧
      ∃ args, call.body = .createCanister args

/-- **C26**: when a burn request makes its outgoing call, `amount` plus the fee have left
the account, one block at the end of the log records it, and exactly `amount` cycles are
attached to one new call to the right canister. -/
theorem C26_call_made [Crypto] {y y' : Sys} (h : Reachable y) {m : Msg} {r : Spec.BurnReq}
    {to : Option Principal} (hm : Spec.burnRequest m = some (r, to))
    (hx : y.exec m = (y', .suspended)) :
    (∀ a : Account, (icrc1BalanceOf y'.ledger a : Int) = icrc1BalanceOf y.ledger a
      - (if Spec.SameAccount a r.frm then (r.amount : Int) + 100000000 else 0)) ∧
    (∃ b, y'.ledger.blocks = y.ledger.blocks ++ [b] ∧ b.transaction = r.transaction to ∧
      b.timestamp = y.now) ∧
    (∃ q : Pending, y'.pending = y.pending ++ [q] ∧ q.call.cycles = r.amount ∧
      Spec.SentTo q.call to ∧ q.data.blockIndex = y.ledger.blocks.length ∧
      q.data.transaction = r.transaction to) ∧
    y'.cycles = y.cycles - r.amount := by
  rcases exec_burn h.inv hm with ⟨s1, p, hs⟩ | ⟨e, he⟩
  · have hok := callOk_started hm hs
    obtain ⟨he, _, _, _, ⟨old, hp, _⟩, _, ⟨_, h1⟩ | ⟨_, h1⟩⟩ := hs
    · rw [hx] at h1
      cases h1
      have hcy : (callOf m).cycles = r.amount := by rw [hok.cycles, hp]
      refine ⟨he.burn.1, ⟨_, he.blocks, rfl, rfl⟩, ⟨_, rfl, hcy, ?_, by rw [hp], by rw [hp]⟩, ?_⟩
      · cases m <;> first | cases hm | skip
        · exact ⟨rfl, rfl⟩
        · exact ⟨rfl, rfl⟩
        · exact ⟨rfl, _, rfl⟩
        · exact ⟨rfl, _, rfl⟩
      · simp only [sent, hcy]
    · rcases h1 with ⟨h1, _⟩ | ⟨fb, ab, s', _, _, _, _, _, h1, _⟩
      · rw [hx] at h1; cases h1
      · rw [hx] at h1; exact absurd rfl h1
  · have := he.2.2.2.2.1
    rw [hx] at this
    exact absurd rfl this

open Toy in
example : Reachable demo ∧ (demo.exec (wdr alice 5).msg).2 = .suspended ∧
    (demo.exec (create alice 5).msg).2 = .suspended ∧
    (demo.exec (wdrFrom bob alice 5).msg).2 = .suspended :=
  ⟨demo_reachable, by decide +kernel, by decide +kernel, by decide +kernel⟩

/-! ## C29 -/

theorem cmcArgument_spec (given : Option CmcArgs) (caller : Principal) :
    Spec.CreationArg given caller (cmcArgument given caller) := by
  cases given with
  | none =>
    refine ⟨fun x => ⟨(fun h => nomatch h), ?_⟩, _, rfl, (fun g st' h => nomatch h), fun _ => rfl⟩
    rintro ⟨g, h, _⟩; cases h
  | some arg =>
    obtain ⟨sel, st⟩ := arg
    refine ⟨fun x => ⟨fun h => ⟨_, rfl, h⟩, ?_⟩, _, rfl, ?_, ?_⟩
    · rintro ⟨g, h, h2⟩; cases h; exact h2
    · rintro g st' h h2
      cases h
      simp only at h2
      subst h2
      constructor
      · intro cs hcs; cases st' <;> simp only at hcs; subst hcs; rfl
      · intro hcs; cases st' <;> simp only at hcs; subst hcs; rfl
    · intro h
      cases st with
      | none => rfl
      | some st => exact absurd rfl (h _ st rfl)

/-- **C29**: every call to the CMC that is made asks for the canister the user asked for,
controlled by the caller unless the user says otherwise. -/
theorem C29_creation_argument [Crypto] {y y' : Sys} (h : Reachable y) {m : Msg}
    {caller : Principal} {given : Option CmcArgs}
    (hm : (∃ a sync, m = .createCanister caller a sync ∧ a.creationArgs = given) ∨
      (∃ a sync, m = .createCanisterFrom caller a sync ∧ a.creationArgs = given))
    (hx : y.exec m = (y', .suspended)) :
    ∃ (q : Pending) (args : CmcArgs), y'.pending = y.pending ++ [q] ∧
      q.call.body = .createCanister args ∧ Spec.CreationArg given caller args := by
  have hb : ∃ r, Spec.burnRequest m = some (r, none) := by
    rcases hm with ⟨a, sync, rfl, _⟩ | ⟨a, sync, rfl, _⟩ <;> exact ⟨_, rfl⟩
  obtain ⟨r, hb⟩ := hb
  rcases exec_burn h.inv hb with ⟨s1, p, hs⟩ | ⟨e, he⟩
  · obtain ⟨he, _, _, _, ⟨old, hp, _⟩, _, ⟨_, h1⟩ | ⟨_, h1⟩⟩ := hs
    · rw [hx] at h1
      cases h1
      refine ⟨_, cmcArgument given caller, rfl, ?_, cmcArgument_spec given caller⟩
      rcases hm with ⟨a, sync, rfl, rfl⟩ | ⟨a, sync, rfl, rfl⟩ <;> rfl
    · rcases h1 with ⟨h1, _⟩ | ⟨fb, ab, s', _, _, _, _, _, h1, _⟩
      · rw [hx] at h1; cases h1
      · rw [hx] at h1; exact absurd rfl h1
  · have := he.2.2.2.2.1
    rw [hx] at this
    exact absurd rfl this

open Toy in
example : Reachable demo ∧
    (demo.exec (.createCanister alice ⟨none, none, 5, some ⟨none, some { controllers := some [bob], freezingThreshold := some 7 }⟩⟩ none)).2 =
      .suspended :=
  ⟨demo_reachable, by decide +kernel⟩

/-! ## C30: indices in answers -/

/-- **C30**: the index in a positive answer to a request is that of a block just added
which records exactly the request. -/
theorem C30_ok_index [Crypto] {y y' : Sys} (h : Reachable y) {m : Msg} {reply : Reply} {i : Nat}
    (hreq : Spec.IsRequest m) (hx : y.exec m = (y', reply)) (hok : Spec.okIndex reply = some i) :
    i = y.ledger.blocks.length ∧ ∃ b, y'.ledger.blocks = y.ledger.blocks ++ [b] ∧
      y'.ledger.blocks[i]? = some b ∧ Spec.requestTransaction m = some b.transaction := by
  have fin : ∀ (s' : State) (t : Transaction), Effect y.now y.ledger s' t → y'.ledger = s' →
      i = y.ledger.blocks.length → Spec.requestTransaction m = some t →
      i = y.ledger.blocks.length ∧ ∃ b, y'.ledger.blocks = y.ledger.blocks ++ [b] ∧
        y'.ledger.blocks[i]? = some b ∧ Spec.requestTransaction m = some b.transaction := by
    intro s' t he h1 h2 h3
    refine ⟨h2, _, by rw [h1]; exact he.blocks, ?_, h3⟩
    rw [h1, he.blocks, h2]; simp
  rcases msg_cases m with ⟨r, to, hm⟩ | ⟨r, hm⟩ | ⟨r, hm⟩ | ⟨c, cy, a, rfl⟩ | ⟨k, a, rfl⟩ |
    ⟨k, rfl⟩ | ⟨a, rfl⟩
  · rcases exec_burn h.inv hm with ⟨s1, p, _, _, _, _, _, _, ⟨_, h1⟩ | ⟨_, h1⟩⟩ | ⟨e, he⟩
    · rw [hx] at h1; cases h1; cases hok
    · rcases h1 with ⟨h1, _⟩ | ⟨fb, ab, s', _, _, h1, _⟩
      · rw [hx] at h1; cases h1; cases hok
      · rw [hx] at h1; rw [h1] at hok; cases hok
    · have := he.2.1; rw [hx] at this; rw [this] at hok; cases hok
  · rcases exec_transfer h.inv hm with ⟨s', h1, h2, _, _, he, _⟩ | ⟨e, _, h2, _⟩ | ⟨h1, _⟩
    · rw [hx] at h1 h2
      rw [h2] at hok
      cases hok; cases h1
      refine fin s' _ he rfl rfl ?_
      cases m <;> cases hm <;> rfl
    · rw [hx] at h2; rw [h2] at hok; cases hok
    · rw [hx] at h1; cases h1; cases hok
  · rcases exec_approve h.inv hm with ⟨s', h1, h2, _, _, he, _⟩ | ⟨e, _, h2, _⟩ | ⟨h1, _⟩
    · rw [hx] at h1 h2
      rw [h2] at hok
      cases hok; cases h1
      refine fin s' _ he rfl rfl ?_
      cases m <;> cases hm <;> rfl
    · rw [hx] at h2; rw [h2] at hok; cases hok
    · rw [hx] at h1; cases h1; cases hok
  · rcases exec_deposit h.inv c cy a with ⟨s', h1, he, _⟩ | ⟨h1, _⟩
    · rw [hx] at h1; cases h1; cases hok
      exact fin s' _ he rfl rfl rfl
    · rw [hx] at h1; cases h1; cases hok
  · exact absurd rfl hreq
  · exact absurd rfl hreq
  · exact absurd rfl hreq

/-- **C30**: the index in the positive answer after an outgoing call is that of the block
that recorded the burn (see `C26_call_made` for `p`). -/
theorem C30_ok_index_of_call [Crypto] {y y' : Sys} (h : Reachable y) {k i : Nat} {ans : Answer}
    {p : Pending} {reply : Reply} (hp : y.pending[k]? = some p)
    (hx : y.exec (.callback k ans) = (y', reply)) (hok : Spec.okIndex reply = some i) :
    i = p.data.blockIndex ∧ ∃ b, y'.ledger.blocks[i]? = some b ∧
      b.transaction = p.data.transaction ∧
      b.transaction.operation = .burn p.data.frm p.data.spender p.call.cycles := by
  have hpo := h.inv.pending p (List.mem_of_getElem? hp)
  obtain ⟨b, hb, hbt⟩ := hpo.block
  have hpre := C30_index_stable h [⟨0, .callback k ans⟩] _ b hb
  have h0 : y.tick 0 = y := by
    have := h.inv.ledger.clock
    unfold Sys.tick
    rw [Nat.add_zero, Nat.min_eq_left this]
  simp only [Sys.run, Sys.step, h0, hx] at hpre
  rcases exec_callback_cases h.inv k ans with ⟨h1, _⟩ | ⟨q, hq, _, ⟨_, _, h1⟩ | ⟨back, _, h1⟩⟩
  · rw [hx] at h1; cases h1; cases hok
  · rw [hp] at hq; cases hq
    rw [hx] at h1; rw [h1] at hok; cases hok
    refine ⟨rfl, b, hpre, hbt, ?_⟩
    rw [hbt, hpo.op, (h.callOk p (List.mem_of_getElem? hp)).cycles]
  · rcases h1 with ⟨h1, _⟩ | ⟨fb, ab, s', _, _, h1, _⟩
    · rw [hx] at h1; cases h1; cases hok
    · rw [hx] at h1; rw [h1] at hok; cases hok

/-- What the indices in a negative answer after a started burn refer to: the burn, the
refund and the refund of the allowance. -/
structure Spec.FailedIndices (now : Nat) (bs : List Block) (burn : Transaction) (frm : Account)
    (spender : Option Account) (kind : CallKind) (back : Nat)
    (wb fb ab : Option Nat) : Prop where
  burn : ∀ i, wb = some i → ∃ b, bs[i]? = some b ∧ b.transaction = burn
  refund : ∀ i, fb = some i → ∃ b, bs[i]? = some b ∧
    b.transaction = ⟨.mint frm (back - 100000000) 0, none, some (Spec.refundMemo kind)⟩ ∧
    b.timestamp = now
  allowance : ∀ i, ab = some i → ∃ b sp x e, bs[i]? = some b ∧ spender = some sp ∧
    b.transaction.operation = .approve frm sp x none e none ∧ b.timestamp = now

theorem Failed.indices [Crypto] {y : Sys} {s : State} {kind : CallKind} {p : Suspended} {back : Nat}
    {out : Sys × Reply} (h : Failed y s kind p back out) (hp : PendOk s p)
    {wb fb ab : Option Nat} (hf : Spec.failedBlocks out.2 = some (wb, fb, ab)) :
    Spec.FailedIndices y.now out.1.ledger.blocks p.transaction p.frm p.spender kind back wb fb ab := by
  rcases h with ⟨h, _⟩ | ⟨fb', ab', s', h1, hr, _, _, _, _, h2⟩
  · rw [h] at hf; cases hf
  · rw [h2, Option.some.injEq] at hf
    have hw : ∀ i, wb = some i → i = p.blockIndex := by
      intro i hi
      cases kind <;> simp only [reported, Prod.mk.injEq] at hf <;> obtain ⟨h3, _⟩ := hf <;>
        rw [hi] at h3 <;> cases h3 <;> rfl
    have hfb : fb = fb' := by
      cases kind <;> simp only [reported, Prod.mk.injEq] at hf <;> exact hf.2.1.symm
    have hab : ∀ i, ab = some i → ab' = some i := by
      intro i hi
      cases kind <;> simp only [reported, Prod.mk.injEq] at hf <;> obtain ⟨_, _, h3⟩ := hf <;>
        rw [hi] at h3 <;> first | exact h3 | cases h3
    have hpre : s.blocks <+: s'.blocks := by
      rcases hr with ⟨_, _, _, rfl⟩ | ⟨_, _, _, he, _⟩ | ⟨_, _, _, sp, s2, _, he, he2⟩
      · exact List.prefix_refl _
      · rw [he.blocks]; exact List.prefix_append _ _
      · rw [he2.blocks, he.blocks, List.append_assoc]; exact List.prefix_append _ _
    rw [h1]
    simp only
    subst hfb
    refine ⟨?_, ?_, ?_⟩
    · intro i hi
      obtain ⟨b, hb, hbt⟩ := (hp.mono hpre).block
      rw [hw i hi]
      exact ⟨b, hb, hbt⟩
    · intro i hi
      rcases hr with ⟨_, h3, _⟩ | ⟨_, h3, _, he, _⟩ | ⟨_, h3, _, sp, s2, _, he, he2⟩
      · rw [h3] at hi; cases hi
      · rw [h3] at hi; cases hi
        exact ⟨_, by rw [he.blocks]; simp; rfl, rfl, rfl⟩
      · rw [h3] at hi; cases hi
        refine ⟨mkBlock s (Spec.refundTransaction kind p back) y.now, ?_, rfl, rfl⟩
        rw [he2.blocks, he.blocks]; simp
    · intro i hi
      have hi := hab i hi
      rcases hr with ⟨_, _, h3, _⟩ | ⟨_, _, h3, he, _⟩ | ⟨_, _, h3, sp, s2, hr, he, he2⟩
      · rw [h3] at hi; cases hi
      · rw [h3] at hi; cases hi
      · rw [h3] at hi; cases hi
        refine ⟨mkBlock s2 (Spec.allowanceRefund s y.now p sp back) y.now, sp, _, _, ?_, hr.1.1, rfl,
          rfl⟩
        rw [he2.blocks, he.blocks]; simp

/-- **C30**: the indices in a negative answer after an outgoing call refer to the burn,
the refund and the refund of the allowance. -/
theorem C30_failed_index_of_call [Crypto] {y y' : Sys} (h : Reachable y) {k : Nat} {ans : Answer}
    {p : Pending} {reply : Reply} {wb fb ab : Option Nat} (hp : y.pending[k]? = some p)
    (hx : y.exec (.callback k ans) = (y', reply))
    (hf : Spec.failedBlocks reply = some (wb, fb, ab)) :
    ∃ back, Spec.returned p ans = some back ∧
      Spec.FailedIndices y.now y'.ledger.blocks p.data.transaction p.data.frm p.data.spender p.kind
        back wb fb ab := by
  have hpo := h.inv.pending p (List.mem_of_getElem? hp)
  rcases exec_callback_cases h.inv k ans with ⟨h1, _⟩ | ⟨q, hq, _, ⟨_, _, h1⟩ | ⟨back, hr, h1⟩⟩
  · rw [hx] at h1; cases h1; cases hf
  · rw [hx] at h1
    cases reply with
    | withdraw r => cases r <;> first | (cases hf; done) | (cases h1; done)
    | withdrawFrom r => cases r <;> first | (cases hf; done) | (cases h1; done)
    | createCanister r => cases r <;> first | (cases hf; done) | (cases h1; done)
    | createCanisterFrom r => cases r <;> first | (cases hf; done) | (cases h1; done)
    | _ => cases hf
  · rw [hp] at hq; cases hq
    have := h1.indices hpo (wb := wb) (fb := fb) (ab := ab) (by rw [hx]; exact hf)
    rw [hx] at this
    exact ⟨back, hr, this⟩

/-- **C30**: the same when the outgoing call fails before it is sent. -/
theorem C30_failed_index_of_request [Crypto] {y y' : Sys} (h : Reachable y) {m : Msg}
    {r : Spec.BurnReq} {to : Option Principal} {reply : Reply} {wb fb ab : Option Nat}
    (hm : Spec.burnRequest m = some (r, to)) (hx : y.exec m = (y', reply))
    (hf : Spec.failedBlocks reply = some (wb, fb, ab)) :
    Spec.FailedIndices y.now y'.ledger.blocks (r.transaction to) r.frm r.spender (Spec.kindOf m)
      r.amount wb fb ab := by
  rcases exec_burn h.inv hm with ⟨s1, p, _, _, _, _, ⟨old, hp, _⟩, hpo, ⟨_, h1⟩ | ⟨_, h1⟩⟩ | ⟨e, he⟩
  · rw [hx] at h1; cases h1; cases hf
  · have := h1.indices hpo (wb := wb) (fb := fb) (ab := ab) (by rw [hx]; exact hf)
    rw [hx, hp] at this
    exact this
  · have := he.2.2.2.2.2.1; rw [hx] at this; rw [this] at hf; cases hf

open Toy in
/-- The outstanding calls of the example fail or succeed; a further call fails at once. -/
example : Reachable demo ∧
    Spec.failedBlocks (demo.exec (.callback 0 (.depositCycles (some (.rejected (some .canisterReject)))))).2 =
      some (some 4, some 6, some 7) ∧
    Spec.okIndex (demo.exec (.callback 1 (.cmc (.created carol) 0))).2 = some 5 ∧
    Spec.failedBlocks (demo.exec (.withdrawFrom bob ⟨none, acc alice, target, none, 250000000⟩
      (some (.rejected none)))).2 = some (some 6, some 7, some 8) :=
  ⟨demo_reachable, by decide +kernel, by decide +kernel, by decide +kernel⟩

end CyclesLedger
