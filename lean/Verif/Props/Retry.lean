import Verif.Props.Repeat
import Verif.Props.Burns
import Verif.Props.Validity
import Verif.Props.Refunds
import Verif.Props.Oracle
/-!
# C94: repeating a request

A client that does not know whether its request arrived repeats it, with the same
`created_at_time`, as often as it likes.
-/
namespace CyclesLedger

/-- In the course of `es` somebody who asked for `t` is told that it is recorded in block `i`: as
the answer to the request, or as the answer after the call it led to. -/
def Spec.Told [Crypto] (y : Sys) (es : List Event) (t : Transaction) (i : Nat) : Prop :=
  ∃ pre e post, es = pre ++ e :: post ∧
    ((Spec.requestTransaction e.msg = some t ∧
        (Spec.okIndex ((y.run pre).step e).2 = some i ∨
         Spec.SaysDuplicate ((y.run pre).step e).2 i ∨
         ∃ fb ab, Spec.failedBlocks ((y.run pre).step e).2 = some (some i, fb, ab))) ∨
      ∃ k ans p, e.msg = .callback k ans ∧ (y.run pre).pending[k]? = some p ∧
        p.data.transaction = t ∧
        (Spec.okIndex ((y.run pre).step e).2 = some i ∨
         ∃ fb ab, Spec.failedBlocks ((y.run pre).step e).2 = some (some i, fb, ab)))

theorem NoClash.mono [Crypto] {s s' : State} {t : Transaction} (h : Spec.NoClash s' t)
    (hp : s.blocks <+: s'.blocks) : Spec.NoClash s t := by
  rintro ⟨a, ha, b, hb, h1⟩
  have sub : ∀ x, x ∈ t :: s.blocks.map Block.transaction → x ∈ t :: s'.blocks.map Block.transaction := by
    intro x hx
    rcases List.mem_cons.1 hx with rfl | hx
    · exact List.mem_cons_self ..
    · obtain ⟨c, hc, rfl⟩ := List.mem_map.1 hx
      exact List.mem_cons_of_mem _ (List.mem_map_of_mem (hp.subset hc))
  exact h ⟨a, sub a ha, b, sub b hb, h1⟩

theorem isRequest_of_transaction {m : Msg} {t : Transaction}
    (h : Spec.requestTransaction m = some t) : Spec.IsRequest m := by
  cases m <;> first | (cases h; done) | (intro h'; cases h')

theorem burn_of_failed [Crypto] {y : Sys} (h : Reachable y) {m : Msg} {t : Transaction}
    (hm : Spec.requestTransaction m = some t) {v : Option Nat × Option Nat × Option Nat}
    (hf : Spec.failedBlocks (y.exec m).2 = some v) :
    ∃ r to, Spec.burnRequest m = some (r, to) ∧ t = r.transaction to := by
  rcases msg_cases m with ⟨r, to, hr⟩ | ⟨r, hr⟩ | ⟨r, hr⟩ | ⟨c, cy, a, rfl⟩ | ⟨i, a, rfl⟩ |
    ⟨i, rfl⟩ | ⟨a, rfl⟩
  · exact ⟨r, to, hr, by cases m <;> cases hr <;> exact (Option.some.inj hm).symm⟩
  · exfalso
    rcases exec_transfer h.inv hr with ⟨s', _, hok, _⟩ | ⟨e, _, _, h2, _⟩ | ⟨h1, _⟩
    · cases hx : (y.exec m).2 <;> rw [hx] at hf hok <;> first | (cases hf; done) | skip
      all_goals (rename_i x; cases x <;> first | (cases hok; done) | (cases hf; done))
    · cases hx : (y.exec m).2 <;> rw [hx] at hf h2 <;> first | (cases hf; done) | (cases h2; done)
    · rw [h1] at hf; cases hf
  · exfalso
    rcases exec_approve h.inv hr with ⟨s', _, hok, _⟩ | ⟨e, _, _, h2, _⟩ | ⟨h1, _⟩
    · cases hx : (y.exec m).2 <;> rw [hx] at hf hok <;> first | (cases hf; done) | skip
      all_goals (rename_i x; cases x <;> first | (cases hok; done) | (cases hf; done))
    · cases hx : (y.exec m).2 <;> rw [hx] at hf h2 <;> first | (cases hf; done) | (cases h2; done)
    · rw [h1] at hf; cases hf
  · exfalso
    rcases exec_deposit h.inv c cy a with ⟨s', h1, _⟩ | ⟨h1, _⟩ <;> rw [h1] at hf <;> cases hf
  · cases hm
  · cases hm
  · cases hm

/-- **C94**: whoever is told, by whatever answer, that their request is in block `i` finds exactly
this request there, then and for ever after. -/
theorem C94_recorded [Crypto] {y : Sys} (h : Reachable y) {es : List Event} {t : Transaction} {i : Nat}
    (hn : Spec.NoClash (y.run es).ledger t) (ht : Spec.Told y es t i) :
    ∃ b, (y.run es).ledger.blocks[i]? = some b ∧ b.transaction = t := by
  obtain ⟨pre, e, post, rfl, hc⟩ := ht
  have hr : Reachable ((y.run pre).tick e.dt) := (h.run pre).tick e.dt
  have hafter : (y.run (pre ++ e :: post)) = ((y.run pre).step e).1.run post := by
    rw [run_append]; rfl
  have later : ∀ b, ((y.run pre).step e).1.ledger.blocks[i]? = some b →
      (y.run (pre ++ e :: post)).ledger.blocks[i]? = some b := by
    intro b hb
    rw [hafter]
    exact C30_index_stable ((h.run pre).step e) post i b hb
  suffices ∃ b, ((y.run pre).step e).1.ledger.blocks[i]? = some b ∧ b.transaction = t by
    obtain ⟨b, hb, hbt⟩ := this
    exact ⟨b, later b hb, hbt⟩
  have hn' : Spec.NoClash ((y.run pre).tick e.dt).ledger t := by
    refine NoClash.mono hn ?_
    have := C30_append_only (h.run pre) (e :: post)
    rw [run_append]
    exact this
  rcases hc with ⟨hm, h1 | h1 | ⟨fb, ab, h1⟩⟩ | ⟨k, ans, p, hm, hp, hpt, h1⟩
  · obtain ⟨_, b, _, hb, hbt⟩ := C30_ok_index hr (isRequest_of_transaction hm) rfl h1
    rw [hm] at hbt
    exact ⟨b, hb, (Option.some.inj hbt).symm⟩
  · obtain ⟨⟨b, hb, hbt, _⟩, hs⟩ := C10_duplicate_truthful hr hm hn' h1
    refine ⟨b, ?_, hbt⟩
    rw [Sys.step, hs]
    exact hb
  · obtain ⟨r, to, hbr, rfl⟩ := burn_of_failed hr hm h1
    exact (C30_failed_index_of_request hr hbr rfl h1).burn i rfl
  · have hp' : ((y.run pre).tick e.dt).pending[k]? = some p := hp
    rcases h1 with h1 | ⟨fb, ab, h1⟩
    · rw [Sys.step, hm] at h1 ⊢
      obtain ⟨_, b, hb, hbt, _⟩ := C30_ok_index_of_call hr hp' rfl h1
      exact ⟨b, hb, hbt.trans hpt⟩
    · rw [Sys.step, hm] at h1 ⊢
      obtain ⟨back, _, hf⟩ := C30_failed_index_of_call hr hp' rfl h1
      obtain ⟨b, hb, hbt⟩ := hf.burn i rfl
      exact ⟨b, hb, hbt.trans hpt⟩

/-- **C94**: all answers to repetitions of a request with a `created_at_time` name the same block,
whoever repeats it, whenever, and whatever happens in between. -/
theorem C94_one_index [Crypto] {y : Sys} (h : Reachable y) {es : List Event} {t : Transaction}
    (hc : t.createdAtTime.isSome) (hn : Spec.NoClash (y.run es).ledger t) {i j : Nat}
    (hi : Spec.Told y es t i) (hj : Spec.Told y es t j) : i = j := by
  obtain ⟨b, hb, hbt⟩ := C94_recorded h hn hi
  obtain ⟨b', hb', hbt'⟩ := C94_recorded h hn hj
  exact C09_at_most_once (h.run es) hb hb' (by rw [hbt]; exact hc) (hbt.trans hbt'.symm)

/-- A request that has any effect is recorded in the next block. -/
theorem effect_recorded [Crypto] {y : Sys} (h : Reachable y) {m : Msg} {t : Transaction}
    (hm : Spec.requestTransaction m = some t) (hne : (y.exec m).1 ≠ y) :
    ∃ b, (y.exec m).1.ledger.blocks[y.ledger.blocks.length]? = some b ∧ b.transaction = t := by
  rcases msg_cases m with ⟨r, to, hr⟩ | ⟨r, hr⟩ | ⟨r, hr⟩ | ⟨c, cy, a, rfl⟩ | ⟨i, a, rfl⟩ |
    ⟨i, rfl⟩ | ⟨a, rfl⟩
  · have ht : t = r.transaction to := by
      cases m <;> cases hr <;> exact (Option.some.inj hm).symm
    subst ht
    rcases exec_burn h.inv hr with ⟨s1, p, he, _, _, _, _, _, ⟨_, h1⟩ | ⟨_, h1⟩⟩ | ⟨e, he⟩
    · rw [h1]
      refine ⟨mkBlock y.ledger (r.transaction to) y.now, ?_, rfl⟩
      show s1.blocks[_]? = _
      rw [he.blocks]
      exact List.getElem?_concat_length
    · rcases h1 with ⟨h1, _⟩ | ⟨fb, ab, s', h1, hr, _⟩
      · rw [h1] at hne; exact absurd rfl hne
      · have hpre : s1.blocks <+: s'.blocks := by
          rcases hr with ⟨_, _, _, rfl⟩ | ⟨_, _, _, he, _⟩ | ⟨_, _, _, sp, s2, _, he, he2⟩
          · exact List.prefix_refl _
          · rw [he.blocks]; exact List.prefix_append _ _
          · rw [he2.blocks, he.blocks, List.append_assoc]; exact List.prefix_append _ _
        rw [h1]
        refine ⟨mkBlock y.ledger (r.transaction to) y.now, ?_, rfl⟩
        obtain ⟨tl, htl⟩ := hpre
        show s'.blocks[_]? = _
        rw [← htl, he.blocks, List.append_assoc]
        simp
    · exact absurd he.1 hne
  · have ht : t = r.transaction := by
      cases m <;> cases hr <;> exact (Option.some.inj hm).symm
    subst ht
    rcases exec_transfer h.inv hr with ⟨s', h1, _, _, _, he, _⟩ | ⟨e, h1, _⟩ | ⟨h1, _⟩
    · rw [h1]
      refine ⟨mkBlock y.ledger r.transaction y.now, ?_, rfl⟩
      show s'.blocks[_]? = _
      rw [he.blocks]
      exact List.getElem?_concat_length
    · exact absurd h1 hne
    · rw [h1] at hne; exact absurd rfl hne
  · have ht : t = r.transaction := by
      cases m <;> cases hr <;> exact (Option.some.inj hm).symm
    subst ht
    rcases exec_approve h.inv hr with ⟨s', h1, _, _, _, he, _⟩ | ⟨e, h1, _⟩ | ⟨h1, _⟩
    · rw [h1]
      refine ⟨mkBlock y.ledger r.transaction y.now, ?_, rfl⟩
      show s'.blocks[_]? = _
      rw [he.blocks]
      exact List.getElem?_concat_length
    · exact absurd h1 hne
    · rw [h1] at hne; exact absurd rfl hne
  · cases hm
    rcases exec_deposit h.inv c cy a with ⟨s', h1, he, _⟩ | ⟨h1, _⟩
    · rw [h1]
      refine ⟨mkBlock y.ledger _ y.now, ?_, rfl⟩
      show s'.blocks[_]? = _
      rw [he.blocks]
      exact List.getElem?_concat_length
    · rw [h1] at hne; exact absurd rfl hne
  · cases hm
  · cases hm
  · cases hm

/-- **C94**: of all the repetitions of a request with a `created_at_time` at most one does
anything at all. -/
theorem C94_one_effect [Crypto] {y : Sys} (h : Reachable y) {t : Transaction}
    (hc : t.createdAtTime.isSome) {es pre pre' post post' : List Event} {e e' : Event}
    (h1 : es = pre ++ e :: post) (h2 : es = pre' ++ e' :: post')
    (hm : Spec.requestTransaction e.msg = some t) (hm' : Spec.requestTransaction e'.msg = some t)
    (hne : ((y.run pre).step e).1 ≠ (y.run pre).tick e.dt)
    (hne' : ((y.run pre').step e').1 ≠ (y.run pre').tick e'.dt) : pre = pre' := by
  have put : ∀ {pre post e}, es = pre ++ e :: post → Spec.requestTransaction e.msg = some t →
      ((y.run pre).step e).1 ≠ (y.run pre).tick e.dt →
      ∃ b, (y.run es).ledger.blocks[(y.run pre).ledger.blocks.length]? = some b ∧
        b.transaction = t := by
    rintro pre post e rfl hm hne
    obtain ⟨b, hb, hbt⟩ := effect_recorded ((h.run pre).tick e.dt) hm hne
    refine ⟨b, ?_, hbt⟩
    rw [run_append]
    exact C30_index_stable ((h.run pre).step e) post _ b hb
  obtain ⟨b, hb, hbt⟩ := put h1 hm hne
  obtain ⟨b', hb', hbt'⟩ := put h2 hm' hne'
  have hl := C09_at_most_once (h.run es) hb hb' (by rw [hbt]; exact hc) (hbt.trans hbt'.symm)
  -- two positions of the history at which the log has the same length
  have grow : ∀ {pre post e pre' post' e'}, es = pre ++ e :: post → es = pre' ++ e' :: post' →
      Spec.requestTransaction e.msg = some t →
      ((y.run pre).step e).1 ≠ (y.run pre).tick e.dt → pre.length < pre'.length →
      (y.run pre).ledger.blocks.length < (y.run pre').ledger.blocks.length := by
    rintro pre post e pre' post' e' rfl h2 hm hne hlt
    obtain ⟨b, hb, _⟩ := effect_recorded ((h.run pre).tick e.dt) hm hne
    obtain ⟨mid, rfl⟩ : ∃ mid, pre' = pre ++ e :: mid := by
      rcases List.append_eq_append_iff.1 h2 with ⟨a, rfl, h3⟩ | ⟨a, rfl, h3⟩
      · cases a with
        | nil => simp at hlt
        | cons x a => cases h3; exact ⟨a, rfl⟩
      · simp at hlt
        omega
    have := C30_index_stable ((h.run pre).step e) mid _ b hb
    rw [run_append]
    exact (List.getElem?_eq_some_iff.1 this).1
  have hlen : pre.length = pre'.length := by
    rcases Nat.lt_trichotomy pre.length pre'.length with hlt | heq | hgt
    · exact absurd hl (Nat.ne_of_lt (grow h1 h2 hm hne hlt))
    · exact heq
    · exact absurd hl.symm (Nat.ne_of_lt (grow h2 h1 hm' hne' hgt))
  exact (List.append_inj (h1.symm.trans h2) hlen).1

/-- **C94**: once the time of a request has run out, what the log says about it is final. -/
theorem C94_final [Crypto] {y : Sys} (h : Reachable y) {t : Transaction} {c : Nat}
    (hc : t.createdAtTime = some c) (hlate : c + 86400000000000 + 60000000000 < y.now)
    (hno : ∀ b ∈ y.ledger.blocks, b.transaction ≠ t) (es : List Event) :
    ∀ b ∈ (y.run es).ledger.blocks, b.transaction ≠ t := by
  intro b hb hbt
  obtain ⟨d, hd⟩ := List.mem_iff_getElem?.1 hb
  rcases block_origin h es hd with h1 | ⟨pre, e, post, rfl, hle, hb2, hrec⟩
  · exact hno b (List.mem_of_getElem? h1) hbt
  · cases hrec with
    | request hm _ =>
      have hr := (h.run pre).tick e.dt
      have hw := C12_block_only_in_window hr (isRequest_of_transaction hm) rfl (by
        intro heq
        have hb3 : ((y.run pre).tick e.dt).ledger.blocks[d]? = some b := by rw [← heq]; exact hb2
        have := (List.getElem?_eq_some_iff.1 hb3).1
        exact absurd this (Nat.not_lt.2 hle))
      have hcat : Spec.createdAt e.msg = some c := by
        rw [hbt] at hm
        rw [← hc]
        cases hmsg : e.msg <;> rw [hmsg] at hm <;> cases hm <;> rfl
      have h1 := (hw c hcat).1
      have h2 : y.now ≤ (y.run pre).now := run_now_mono pre h
      have h3 : (y.run pre).now ≤ ((y.run pre).tick e.dt).now := by
        have hg := step_grows (h.run pre).inv e
        exact Nat.le_trans hg.1 (Nat.le_of_eq hg.2.1)
      omega
    | refund kind p back hf _ ht =>
      rw [← hbt, ht] at hc
      cases hc
    | allowance kind p back sp s hf hra ht =>
      rw [← hbt, ht] at hc
      cases hc

open Toy in
/-- A transfer sent three times in one minute, with another one in between: both answers that name
a block name block 1, only the first does something, and it is in the log once.  Two days later a
request that is not in the log can no longer get there. -/
example :
    let es := [dep alice 1000000000000, xfer alice bob 5 (some 1000000001), xfer alice bob 7,
      xfer alice bob 5 (some 1000000001), xfer alice bob 5 (some 1000000001)]
    let t : Transaction := ⟨.transfer (acc alice) (acc bob) none 5 none, some 1000000001, none⟩
    Spec.Told start es t 1 ∧ Spec.requestTransaction (xfer alice bob 5 (some 1000000001)).msg = some t ∧
    ((start.run (es.take 1)).step (xfer alice bob 5 (some 1000000001))).2 = .transfer (.ok 1) ∧
    ((start.run (es.take 3)).step (xfer alice bob 5 (some 1000000001))).2 =
      .transfer (.error (.duplicate 1)) ∧
    ((start.run es).ledger.blocks.map Block.transaction).count t = 1 ∧
    (let late := (start.run es).tick 172800000000000
     let u : Transaction := ⟨.transfer (acc alice) (acc bob) none 6 none, some 1000000001, none⟩
     1000000001 + 86400000000000 + 60000000000 < late.now ∧
     ∀ b ∈ late.ledger.blocks, b.transaction ≠ u) := by
  refine ⟨⟨[dep alice 1000000000000], xfer alice bob 5 (some 1000000001), _, rfl,
    Or.inl ⟨by decide +kernel, Or.inl (by decide +kernel)⟩⟩, ?_⟩
  decide +kernel

end CyclesLedger
