import Verif.Props.Retry
/-!
# C95: what becomes of a withdrawal; C96: what `Duplicate` says about it
-/
namespace CyclesLedger

/-- What has become of the cycles of a burn. -/
inductive Spec.Fate where
  | waiting | paid | failed | lost | unsent
  deriving DecidableEq

/-- Message `m` decides the fate of the burn in block `i`: the call it led to is answered, well or
badly; its callback is lost; or the message asks for the burn and the call cannot be sent. -/
inductive Spec.Decides [Crypto] (y : Sys) (m : Msg) (i : Nat) : Spec.Fate → Prop
  | paid {k ans p} : m = .callback k ans → y.pending[k]? = some p → p.data.blockIndex = i →
      Spec.Fits p ans → Spec.returned p ans = none → Decides y m i .paid
  | failed {k ans p} : m = .callback k ans → y.pending[k]? = some p → p.data.blockIndex = i →
      Spec.Fits p ans → Spec.returned p ans ≠ none → Decides y m i .failed
  | lost {k p} : m = .lostCallback k → y.pending[k]? = some p → p.data.blockIndex = i →
      Decides y m i .lost
  | unsent {r to} : Spec.burnRequest m = some (r, to) → Spec.syncOf m ≠ none →
      y.ledger.blocks.length = i → i < (y.exec m).1.ledger.blocks.length → Decides y m i .unsent

/-- What has become of the burn in block `i` after the history `es`. -/
def Spec.HasFate [Crypto] (y : Sys) (es : List Event) (i : Nat) (f : Spec.Fate) : Prop :=
  (f = .waiting ∧ ∃ p ∈ (y.run es).pending, p.data.blockIndex = i) ∨
  ∃ pre e post, es = pre ++ e :: post ∧ Spec.Decides ((y.run pre).tick e.dt) e.msg i f

/-- Outstanding calls stay so until they are answered or lost. -/
theorem pending_kept [Crypto] {y : Sys} (hi : SInv y) (m : Msg) {p : Pending} (hp : p ∈ y.pending) :
    p ∈ (y.exec m).1.pending ∨
    (∃ k ans, m = .callback k ans ∧ y.pending[k]? = some p ∧ Spec.Fits p ans) ∨
    (∃ k, m = .lostCallback k ∧ y.pending[k]? = some p) := by
  have same : (y.exec m).1.pending = y.pending → p ∈ (y.exec m).1.pending := fun h => by rw [h]; exact hp
  have erase : ∀ k q, y.pending[k]? = some q → (y.exec m).1.pending = y.pending.eraseIdx k →
      p ∈ (y.exec m).1.pending ∨ p = q := by
    intro k q hq h
    obtain ⟨j, hj⟩ := List.mem_iff_getElem?.1 hp
    by_cases hjk : j = k
    · subst hjk
      rw [hq] at hj
      exact Or.inr (Option.some.inj hj).symm
    · left
      rw [h]
      exact List.mem_eraseIdx_iff_getElem?.2 ⟨j, hjk, hj⟩
  rcases msg_cases m with ⟨r, to, hm⟩ | ⟨r, hm⟩ | ⟨r, hm⟩ | ⟨c, cy, a, rfl⟩ | ⟨i, a, rfl⟩ |
    ⟨i, rfl⟩ | ⟨a, rfl⟩
  · left
    rcases exec_burn hi hm with ⟨s1, q, hs⟩ | ⟨e, he⟩
    · obtain ⟨_, _, _, _, _, _, ⟨_, h1⟩ | ⟨_, h1⟩⟩ := hs
      · rw [h1]
        exact List.mem_append_left _ hp
      · exact same h1.pending.1
    · exact same (by rw [he.1])
  · left
    rcases exec_transfer hi hm with ⟨s', h1, _⟩ | ⟨e, h1, _⟩ | ⟨h1, _⟩ <;> exact same (by rw [h1])
  · left
    rcases exec_approve hi hm with ⟨s', h1, _⟩ | ⟨e, h1, _⟩ | ⟨h1, _⟩ <;> exact same (by rw [h1])
  · left
    rcases exec_deposit hi c cy a with ⟨s', h1, _⟩ | ⟨h1, _⟩ <;> exact same (by rw [h1])
  · rcases exec_callback_cases hi i a with ⟨h1, _⟩ | ⟨q, hq, hf, ⟨_, h1, _⟩ | ⟨back, _, h1⟩⟩
    · exact Or.inl (same (by rw [h1]))
    · rcases erase i q hq (by rw [h1]; rfl) with h | rfl
      · exact Or.inl h
      · exact Or.inr (Or.inl ⟨i, a, rfl, hq, hf⟩)
    · rcases erase i q hq h1.pending.1 with h | rfl
      · exact Or.inl h
      · exact Or.inr (Or.inl ⟨i, a, rfl, hq, hf⟩)
  · cases hq : y.pending[i]? with
    | none =>
      left
      have : (y.exec (.lostCallback i)).1.pending = y.pending.eraseIdx i := rfl
      rw [this, List.eraseIdx_of_length_le (List.getElem?_eq_none_iff.1 hq)]
      exact hp
    | some q =>
      rcases erase i q hq rfl with h | rfl
      · exact Or.inl h
      · exact Or.inr (Or.inr ⟨i, rfl, hq⟩)
  · left
    refine same ?_
    simp only [Sys.exec]
    split <;> rfl

/-- Once its fate is decided, a burn has no outstanding call, and its block is there. -/
theorem decided [Crypto] {y : Sys} (h : Reachable y) {m : Msg} {i : Nat} {f : Spec.Fate}
    (hd : Spec.Decides y m i f) : i < (y.exec m).1.ledger.blocks.length ∧
      ∀ q ∈ (y.exec m).1.pending, q.data.blockIndex ≠ i := by
  have grow : y.ledger.blocks.length ≤ (y.exec m).1.ledger.blocks.length := by
    obtain ⟨new, h1, _⟩ := exec_blocks h.inv m
    rw [h1]; simp
  have old : ∀ {k : Nat} {p : Pending}, y.pending[k]? = some p → p.data.blockIndex = i →
      i < (y.exec m).1.ledger.blocks.length := by
    rintro k p hp rfl
    obtain ⟨b, hb, _⟩ := (h.inv.pending p (List.mem_of_getElem? hp)).block
    exact Nat.lt_of_lt_of_le (List.getElem?_eq_some_iff.1 hb).1 grow
  have gone : ∀ {k : Nat} {p : Pending}, y.pending[k]? = some p → p.data.blockIndex = i →
      (y.exec m).1.pending = y.pending.eraseIdx k →
      ∀ q ∈ (y.exec m).1.pending, q.data.blockIndex ≠ i := by
    rintro k p hp rfl he q hq heq
    rw [he, List.mem_eraseIdx_iff_getElem?] at hq
    obtain ⟨j, hjk, hj⟩ := hq
    exact hjk (nodup_index h.pending_nodup hj hp heq)
  have back : ∀ {k ans p}, m = .callback k ans → y.pending[k]? = some p → Spec.Fits p ans →
      (y.exec m).1.pending = y.pending.eraseIdx k := by
    rintro k ans p rfl hp hf
    rcases exec_callback_cases h.inv k ans with ⟨_, h1⟩ | ⟨q, hq, _, ⟨_, h1, _⟩ | ⟨_, _, h1⟩⟩
    · exact absurd hf (h1 p hp)
    · rw [h1]; rfl
    · exact h1.pending.1
  cases hd with
  | paid hm hp hb hf hr => exact ⟨old hp hb, gone hp hb (back hm hp hf)⟩
  | failed hm hp hb hf hr => exact ⟨old hp hb, gone hp hb (back hm hp hf)⟩
  | lost hm hp hb => exact ⟨old hp hb, gone hp hb (by rw [hm]; rfl)⟩
  | unsent hm hs hl hlt =>
    refine ⟨hlt, ?_⟩
    intro q hq heq
    have hq' : q ∈ y.pending := by
      rcases exec_burn h.inv hm with ⟨s1, p, _, _, _, _, _, _, ⟨h1, _⟩ | ⟨_, h1⟩⟩ | ⟨e, he⟩
      · exact absurd h1 hs
      · rw [h1.pending.1] at hq; exact hq
      · rw [he.1] at hq; exact hq
    obtain ⟨b, hb, _⟩ := (h.inv.pending q hq').block
    have := (List.getElem?_eq_some_iff.1 hb).1
    omega

/-- Before that, it has an outstanding call, or its block is the next one. -/
theorem undecided [Crypto] {y : Sys} {m : Msg} {i : Nat} {f : Spec.Fate}
    (hd : Spec.Decides y m i f) :
    (∃ q ∈ y.pending, q.data.blockIndex = i) ∨ y.ledger.blocks.length = i := by
  cases hd with
  | paid hm hp hb hf hr => exact Or.inl ⟨_, List.mem_of_getElem? hp, hb⟩
  | failed hm hp hb hf hr => exact Or.inl ⟨_, List.mem_of_getElem? hp, hb⟩
  | lost hm hp hb => exact Or.inl ⟨_, List.mem_of_getElem? hp, hb⟩
  | unsent hm hs hl hlt => exact Or.inr hl

theorem decides_unique [Crypto] {y : Sys} {m : Msg} {i : Nat} {f g : Spec.Fate}
    (hf : Spec.Decides y m i f) (hg : Spec.Decides y m i g) : f = g := by
  cases hf <;> cases hg <;> first | rfl | skip
  all_goals (simp_all [Spec.burnRequest]; done)

theorem stays_decided [Crypto] {y : Sys} (h : Reachable y) {m : Msg} {i : Nat} {f : Spec.Fate}
    (hd : Spec.Decides y m i f) (es : List Event) :
    i < ((y.exec m).1.run es).ledger.blocks.length ∧
      ∀ q ∈ ((y.exec m).1.run es).pending, q.data.blockIndex ≠ i := by
  obtain ⟨h1, h2⟩ := decided h hd
  refine ⟨Nat.lt_of_lt_of_le h1 (C30_append_only (h.exec m) es).length_le, ?_⟩
  intro q hq heq
  exact h2 q (run_pending_old (h.exec m).inv es hq (by rw [heq]; exact h1)) heq

/-- **C95**: a burn does not have two fates. -/
theorem C95_one_fate [Crypto] {y : Sys} (h : Reachable y) {es : List Event} {i : Nat} {f g : Spec.Fate}
    (hf : Spec.HasFate y es i f) (hg : Spec.HasFate y es i g) : f = g := by
  have wait : ∀ {f}, (∃ p ∈ (y.run es).pending, p.data.blockIndex = i) →
      ¬∃ pre e post, es = pre ++ e :: post ∧ Spec.Decides ((y.run pre).tick e.dt) e.msg i f := by
    rintro f ⟨p, hp, hb⟩ ⟨pre, e, post, rfl, hd⟩
    have := (stays_decided ((h.run pre).tick e.dt) hd post).2 p
    rw [run_append] at hp
    exact this hp hb
  have order : ∀ {f g pre e post pre' e' post'}, es = pre ++ e :: post → es = pre' ++ e' :: post' →
      Spec.Decides ((y.run pre).tick e.dt) e.msg i f →
      Spec.Decides ((y.run pre').tick e'.dt) e'.msg i g → ¬pre.length < pre'.length := by
    rintro f g pre e post pre' e' post' rfl h2 hd hd' hlt
    obtain ⟨mid, rfl⟩ : ∃ mid, pre' = pre ++ e :: mid := by
      rcases List.append_eq_append_iff.1 h2 with ⟨a, rfl, h3⟩ | ⟨a, rfl, h3⟩
      · cases a with
        | nil => simp at hlt
        | cons x a => cases h3; exact ⟨a, rfl⟩
      · simp at hlt
        omega
    obtain ⟨h3, h4⟩ := stays_decided ((h.run pre).tick e.dt) hd mid
    have heq : (y.run (pre ++ e :: mid)) = ((((y.run pre).tick e.dt).exec e.msg).1.run mid) := by
      rw [run_append]; rfl
    rcases undecided hd' with ⟨q, hq, hb⟩ | hl
    · exact h4 q (heq ▸ hq) hb
    · have : (y.run (pre ++ e :: mid)).ledger.blocks.length = i := hl
      rw [heq] at this
      omega
  rcases hf with ⟨rfl, hf⟩ | hf <;> rcases hg with ⟨rfl, hg⟩ | hg
  · rfl
  · exact absurd hg (wait hf)
  · exact absurd hf (wait hg)
  · obtain ⟨pre, e, post, h1, hd⟩ := hf
    obtain ⟨pre', e', post', h1', hd'⟩ := hg
    have hlen : pre.length = pre'.length := by
      have a := order h1 h1' hd hd'
      have b := order h1' h1 hd' hd
      omega
    obtain ⟨rfl, h2⟩ := List.append_inj (h1.symm.trans h1') hlen
    cases h2
    exact decides_unique hd hd'

theorem HasFate.mono [Crypto] {y : Sys} {es : List Event} {i : Nat} {f : Spec.Fate} (e : Event)
    (h : ∃ pre e post, es = pre ++ e :: post ∧ Spec.Decides ((y.run pre).tick e.dt) e.msg i f) :
    Spec.HasFate y (es ++ [e]) i f := by
  obtain ⟨pre, e', post, rfl, hd⟩ := h
  exact Or.inr ⟨pre, e', post ++ [e], by simp, hd⟩

/-- A burn recorded in the course of a history has a fate. -/
theorem fate_exists [Crypto] {y : Sys} (h : Reachable y) (es : List Event) {i : Nat} {b : Block}
    (hnew : y.ledger.blocks.length ≤ i) (hb : (y.run es).ledger.blocks[i]? = some b)
    {frm : Account} {x : Nat} (hburn : ∃ sp, b.transaction.operation = .burn frm sp x) :
    ∃ f, Spec.HasFate y es i f := by
  obtain ⟨n, hn⟩ : ∃ n, es.length = n := ⟨_, rfl⟩
  induction n generalizing es b with
  | zero =>
    rw [List.length_eq_zero_iff] at hn
    subst hn
    have := (List.getElem?_eq_some_iff.1 hb).1
    exact absurd this (Nat.not_lt.2 hnew)
  | succ n ih =>
    obtain ⟨es', e, rfl⟩ : ∃ es' e, es = es' ++ [e] := by
      refine ⟨es.dropLast, es.getLast (by intro h; rw [h] at hn; cases hn), ?_⟩
      rw [List.dropLast_concat_getLast]
    have hn' : es'.length = n := by simpa using hn
    generalize es' = es at *
    have hr := (h.run es).tick e.dt
    have hrun : y.run (es ++ [e]) = (((y.run es).tick e.dt).exec e.msg).1 := by rw [run_append]; rfl
    rw [hrun] at hb
    obtain ⟨new, hblocks, horig⟩ := exec_blocks hr.inv e.msg
    by_cases hlt : i < (y.run es).ledger.blocks.length
    · have hb' : (y.run es).ledger.blocks[i]? = some b := by
        rw [hblocks] at hb
        exact (List.getElem?_append_left hlt).symm.trans hb
      obtain ⟨f, ⟨rfl, p, hp, hpi⟩ | hf⟩ := ih es hb' hburn hn'
      · rcases pending_kept hr.inv e.msg (p := p) hp with h1 | ⟨k, ans, hm, hk, hfits⟩ | ⟨k, hm, hk⟩
        · exact ⟨.waiting, Or.inl ⟨rfl, p, by rw [hrun]; exact h1, hpi⟩⟩
        · cases hret : Spec.returned p ans with
          | none => exact ⟨.paid, Or.inr ⟨es, e, [], rfl, .paid hm hk hpi hfits hret⟩⟩
          | some back =>
            exact ⟨.failed, Or.inr ⟨es, e, [], rfl, .failed hm hk hpi hfits (by rw [hret]; simp)⟩⟩
        · exact ⟨.lost, Or.inr ⟨es, e, [], rfl, .lost hm hk hpi⟩⟩
      · exact ⟨f, HasFate.mono e hf⟩
    · have hi : (y.run es).ledger.blocks.length ≤ i := Nat.le_of_not_lt hlt
      have hnewb : b ∈ new := by
        rw [hblocks] at hb
        exact List.mem_of_getElem? ((List.getElem?_append_right hi).symm.trans hb)
      obtain ⟨sp, hop⟩ := hburn
      obtain ⟨r, to, hm⟩ : ∃ r to, Spec.burnRequest e.msg = some (r, to) := by
        cases (horig b hnewb).2 with
        | request hm _ =>
          rcases msg_cases e.msg with ⟨r, to, hr⟩ | ⟨r, hr⟩ | ⟨r, hr⟩ | ⟨c, cy, a, hr⟩ | ⟨i, a, hr⟩ |
            ⟨i, hr⟩ | ⟨a, hr⟩
          · exact ⟨r, to, hr⟩
          all_goals exfalso
          · cases hx : e.msg <;> rw [hx] at hm hr <;> cases hr <;>
              (rw [← Option.some.inj hm] at hop; cases hop)
          · cases hx : e.msg <;> rw [hx] at hm hr <;> cases hr <;>
              (rw [← Option.some.inj hm] at hop; cases hop)
          · rw [hr] at hm
            rw [← Option.some.inj hm] at hop
            cases hop
          all_goals (rw [hr] at hm; cases hm)
        | refund kind p back _ _ ht => rw [ht] at hop; cases hop
        | allowance kind p back sp s _ _ ht => rw [ht] at hop; cases hop
      rcases exec_burn hr.inv hm with ⟨s1, p, he, _, _, _, ⟨old, hp, _⟩, _, ⟨_, h1⟩ | ⟨hsync, h1⟩⟩ | ⟨e, he⟩
      · rw [h1] at hb
        have hb1 : s1.blocks[i]? = some b := hb
        have hi2 := (List.getElem?_eq_some_iff.1 hb1).1
        rw [he.blocks, List.length_append] at hi2
        have hi3 : i = (y.run es).ledger.blocks.length := by
          have : i < (y.run es).ledger.blocks.length + 1 := hi2
          omega
        refine ⟨.waiting, Or.inl ⟨rfl, ⟨Spec.kindOf e.msg, p, callOf e.msg⟩, ?_, ?_⟩⟩
        · rw [hrun, h1]
          exact List.mem_append_right _ (List.mem_singleton.2 rfl)
        · rw [hi3, hp]
          rfl
      · have hi3 : (y.run es).ledger.blocks.length = i := by
          rcases h1 with ⟨h1, _⟩ | ⟨fb, ab, s', h1, hr, _⟩
          · rw [h1] at hb
            exact absurd (List.getElem?_eq_some_iff.1 hb).1 hlt
          · obtain ⟨l, hl, hno⟩ : ∃ l, s'.blocks = s1.blocks ++ l ∧
                ∀ c ∈ l, c.transaction.operation ≠ .burn frm sp x := by
              rcases hr with ⟨_, _, _, rfl⟩ | ⟨_, _, _, he, _⟩ | ⟨_, _, _, sp, s2, _, he, he2⟩
              · exact ⟨[], by simp, by intro c hc; cases hc⟩
              · refine ⟨_, he.blocks, ?_⟩
                intro c hc
                rw [List.mem_singleton.1 hc]
                intro hh; cases hh
              · refine ⟨_, by rw [he2.blocks, he.blocks, List.append_assoc], ?_⟩
                intro c hc
                simp only [List.cons_append, List.nil_append, List.mem_cons, List.not_mem_nil,
                  or_false] at hc
                rcases hc with rfl | rfl <;> (intro hh; cases hh)
            rw [h1] at hb
            have hb1 : s'.blocks[i]? = some b := hb
            rw [hl, he.blocks] at hb1
            have hlen : (((y.run es).tick e.dt).ledger.blocks ++
                [mkBlock ((y.run es).tick e.dt).ledger (r.transaction to) ((y.run es).tick e.dt).now]).length =
                (y.run es).ledger.blocks.length + 1 := by
              rw [List.length_append]; rfl
            by_cases hge : (y.run es).ledger.blocks.length + 1 ≤ i
            · rw [List.getElem?_append_right (by rw [hlen]; exact hge)] at hb1
              exact absurd hop (hno b (List.mem_of_getElem? hb1))
            · omega
        refine ⟨.unsent, Or.inr ⟨es, e, [], rfl, .unsent hm hsync hi3 ?_⟩⟩
        exact (List.getElem?_eq_some_iff.1 hb).1
      · rw [he.1] at hb
        exact absurd (List.getElem?_eq_some_iff.1 hb).1 hlt

/-- **C95**: every burn in the log has exactly one fate: its call is outstanding, it was answered
well or badly, its callback was lost, or it could not be sent. -/
theorem C95_fate [Crypto] {config : Config} {now cycles : Nat} {y0 : Sys}
    (h0 : Sys.init config now cycles = some y0) (es : List Event) {i : Nat} {b : Block}
    (hb : (y0.run es).ledger.blocks[i]? = some b)
    {frm : Account} {sp : Option Account} {x : Nat} (hburn : b.transaction.operation = .burn frm sp x) :
    ∃ f, Spec.HasFate y0 es i f ∧ ∀ g, Spec.HasFate y0 es i g → g = f := by
  have hr : Reachable y0 := ⟨config, now, cycles, y0, [], h0, rfl⟩
  have hnew : y0.ledger.blocks.length ≤ i := by
    refine Nat.le_of_not_lt fun hlt => ?_
    have h1 := C30_index_stable hr es i _ (List.getElem?_eq_getElem hlt)
    rw [hb] at h1
    obtain ⟨e, _, he⟩ := init_blocks h0 _ (List.getElem_mem hlt)
    rw [← Option.some.inj h1, ] at he
    rw [he] at hburn
    cases hburn
  obtain ⟨f, hf⟩ := fate_exists hr es hnew hb ⟨sp, hburn⟩
  exact ⟨f, hf, fun g hg => C95_one_fate hr hg hf⟩

open Toy in
/-- Of four withdrawals one cannot be sent, one is lost, one is paid and one is outstanding. -/
example :
    let es := [dep alice 1000000000000,
      ⟨1, .withdraw alice ⟨none, target, none, 500000000⟩ (some .callPerformFailed)⟩,
      wdr alice 600000000, wdr alice 700000000, wdr alice 800000000, ⟨1, .lostCallback 0⟩,
      ⟨1, .callback 0 (.depositCycles none)⟩]
    Spec.HasFate start es 1 .unsent ∧ Spec.HasFate start es 3 .lost ∧ Spec.HasFate start es 4 .paid ∧
    Spec.HasFate start es 5 .waiting ∧
    (start.run es).ledger.blocks.map (fun b => b.transaction.operation) =
      [.mint (acc alice) 999900000000 100000000, .burn (acc alice) none 500000000,
       .mint (acc alice) 400000000 0, .burn (acc alice) none 600000000,
       .burn (acc alice) none 700000000, .burn (acc alice) none 800000000] := by
  intro es
  have pend : ∀ n k i : Nat, ((start.run (es.take n)).pending[k]?.map
        (fun p : Pending => (p.data.blockIndex, p.kind))) = some (i, CallKind.withdraw) →
      ∃ p, (start.run (es.take n)).pending[k]? = some p ∧ p.data.blockIndex = i ∧
        p.kind = CallKind.withdraw := by
    intro n k i h
    cases hx : (start.run (es.take n)).pending[k]? with
    | none => rw [hx] at h; cases h
    | some p =>
      rw [hx] at h
      have h2 := Prod.mk.inj (Option.some.inj h)
      exact ⟨p, rfl, h2.1, h2.2⟩
  refine ⟨Or.inr ⟨es.take 1, _, _, rfl, .unsent rfl (by decide) (by decide +kernel) (by decide +kernel)⟩,
    ?_, ?_, ?_, by decide +kernel⟩
  · obtain ⟨p, hp, hi, _⟩ := pend 5 0 3 (by decide +kernel)
    exact Or.inr ⟨es.take 5, _, _, rfl, .lost rfl hp hi⟩
  · obtain ⟨p, hp, hi, hk⟩ := pend 6 0 4 (by decide +kernel)
    exact Or.inr ⟨es.take 6, _, _, rfl, .paid rfl hp hi (Or.inl hk) rfl⟩
  · obtain ⟨p, hp, hi, _⟩ := pend 7 0 5 (by decide +kernel)
    exact Or.inl ⟨rfl, p, List.mem_of_getElem? hp, hi⟩

/-- **C96** (what is true of it): `Duplicate` names a burn from the same account to the same
receiver, whose cycles are on their way or have arrived unless its call failed, was lost or could
not be sent; which of these it is, `Duplicate` does not say (`C96_refuted`). -/
theorem C96_duplicate_partial [Crypto] {config : Config} {now cycles : Nat} {y0 : Sys}
    (h0 : Sys.init config now cycles = some y0) (es : List Event) {e : Event} {r : Spec.BurnReq}
    {to : Option Principal} (hm : Spec.burnRequest e.msg = some (r, to))
    (hn : Spec.NoClash (y0.run es).ledger (r.transaction to)) {i : Nat}
    (hd : Spec.SaysDuplicate ((y0.run es).step e).2 i)
    (hf : ∀ f ∈ [Spec.Fate.failed, .lost, .unsent], ¬Spec.HasFate y0 es i f) :
    (∃ b, (y0.run es).ledger.blocks[i]? = some b ∧ b.transaction = r.transaction to) ∧
    (Spec.HasFate y0 es i .waiting ∨ Spec.HasFate y0 es i .paid) := by
  have hr : Reachable y0 := ⟨config, now, cycles, y0, [], h0, rfl⟩
  have ht : Spec.requestTransaction e.msg = some (r.transaction to) := by
    cases hx : e.msg <;> rw [hx] at hm <;> cases hm <;> rfl
  obtain ⟨⟨b, hb, hbt, _⟩, _⟩ := C10_duplicate_truthful ((hr.run es).tick e.dt) ht hn hd
  refine ⟨⟨b, hb, hbt⟩, ?_⟩
  obtain ⟨f, h1, _⟩ := C95_fate h0 es hb (by rw [hbt]; rfl)
  cases f with
  | waiting => exact Or.inl h1
  | paid => exact Or.inr h1
  | failed => exact absurd h1 (hf _ (by decide))
  | lost => exact absurd h1 (hf _ (by decide))
  | unsent => exact absurd h1 (hf _ (by decide))

open Toy in
/-- The canister asked for twice in `demo` is being created. -/
example : Spec.SaysDuplicate (demo.step (create alice 500000000 (some 1000000001))).2 5 ∧
    ∀ f ∈ [Spec.Fate.failed, .lost, .unsent], ¬Spec.HasFate start events 5 f := by
  have hr : Reachable start := ⟨cfg, T, 0, start, [], start_eq, rfl⟩
  refine ⟨Or.inr (Or.inr ⟨some none, by decide +kernel⟩), ?_⟩
  have hw : Spec.HasFate start events 5 .waiting := by
    cases hx : (start.run events).pending[1]? with
    | none => exact absurd (congrArg Option.isSome hx) (by decide +kernel)
    | some p =>
      have h1 : ((start.run events).pending[1]?.map (fun p => p.data.blockIndex)) = some 5 := by
        decide +kernel
      rw [hx] at h1
      exact Or.inl ⟨rfl, p, List.mem_of_getElem? hx, Option.some.inj h1⟩
  intro f hf h
  have := C95_one_fate hr hw h
  subst this
  revert hf
  decide

open Toy in
/-- A withdrawal with a `created_at_time`. -/
def wdrAt (p : Principal) (x : Nat) (cat : UInt64) : Event :=
  ⟨1, .withdraw p ⟨none, target, some cat, x⟩ none⟩

open Toy in
/-- **C96** fails: the first withdrawal fails and is refunded; the client, whose answer got lost,
repeats it and is told `Duplicate`, although no cycles were, are or will be sent. -/
theorem C96_refuted : Sys.init cfg T 0 = some start ∧
    let es := [dep alice 1000000000000, wdrAt alice 500000000 1000000001,
      ⟨1, .callback 0 (.depositCycles (some (.rejected none)))⟩]
    Spec.SaysDuplicate ((start.run es).step (wdrAt alice 500000000 1000000001)).2 1 ∧
    (∀ t, Spec.requestTransaction (wdrAt alice 500000000 1000000001).msg = some t →
      Spec.NoClash (start.run es).ledger t) ∧
    Spec.HasFate start es 1 .failed ∧
    ¬Spec.HasFate start es 1 .waiting ∧ ¬Spec.HasFate start es 1 .paid := by
  refine ⟨start_eq, ?_⟩
  intro es
  have hr : Reachable start := ⟨cfg, T, 0, start, [], start_eq, rfl⟩
  have hf : Spec.HasFate start es 1 .failed := by
    refine Or.inr ⟨[dep alice 1000000000000, wdrAt alice 500000000 1000000001],
      ⟨1, .callback 0 (.depositCycles (some (.rejected none)))⟩, [], rfl, ?_⟩
    have hp : ∃ p, (start.run [dep alice 1000000000000,
        wdrAt alice 500000000 1000000001]).pending[0]? = some p ∧ p.data.blockIndex = 1 ∧
        p.kind = CallKind.withdraw := by
      cases hx : (start.run [dep alice 1000000000000,
        wdrAt alice 500000000 1000000001]).pending[0]? with
      | none => exact absurd (congrArg Option.isSome hx) (by decide +kernel)
      | some p =>
        refine ⟨p, rfl, ?_⟩
        have h1 : ((start.run [dep alice 1000000000000,
          wdrAt alice 500000000 1000000001]).pending[0]?.map
            (fun p => (p.data.blockIndex, p.kind))) = some (1, .withdraw) := by decide +kernel
        rw [hx] at h1
        have h2 := Prod.mk.inj (Option.some.inj h1)
        exact ⟨h2.1, h2.2⟩
    obtain ⟨p, hp, hi, hk⟩ := hp
    exact .failed rfl hp hi (Or.inl hk) (by intro h; cases h)
  refine ⟨Or.inr (Or.inr ⟨none, by decide +kernel⟩), ?_, hf, ?_, ?_⟩
  · intro t ht; cases ht; decide +kernel
  · intro h; cases C95_one_fate hr hf h
  · intro h; cases C95_one_fate hr hf h

end CyclesLedger
