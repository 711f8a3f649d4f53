import Verif.Props.Client
/-!
# C93: following the log

An index canister, or any other client that copies the log, asks for the blocks after those it has,
again and again, while the ledger goes on.
-/
namespace CyclesLedger

/-- Something happens to the ledger, or the follower asks for the next `length` blocks. -/
inductive Spec.Act where
  | happens (e : Event)
  | asks (length : Nat)

/-- The part of an answer that continues a log of `n` blocks. -/
def Spec.continued : Nat → List (Nat × Value) → List Value
  | _, [] => []
  | n, (i, v) :: rest => if i = n then v :: Spec.continued (n + 1) rest else []

/-- The ledger, and the blocks the follower has. -/
def Spec.followLog [Crypto] (y : Sys) (got : List Value) : List Spec.Act → Sys × List Value
  | [] => (y, got)
  | .happens e :: acts => Spec.followLog (y.step e).1 got acts
  | .asks length :: acts =>
    Spec.followLog y (got ++ Spec.continued got.length (getBlocks y.ledger [⟨got.length, length⟩]).2) acts

/-- The log as it is served. -/
def Spec.servedLog (y : Sys) : List Value := y.ledger.blocks.map Block.toValue

theorem continued_prefix (vs : List Value) : ∀ (l : List (Nat × Value)) (n : Nat),
    (∀ e ∈ l, vs[e.1]? = some e.2) → n ≤ vs.length → Spec.continued n l <+: vs.drop n
  | [], _, _, _ => by simp [Spec.continued]
  | (i, v) :: l, n, h, hn => by
    unfold Spec.continued
    split
    · rename_i hi
      subst hi
      have hv := h (i, v) (List.mem_cons_self ..)
      obtain ⟨hlt, hv⟩ := List.getElem?_eq_some_iff.mp hv
      have ih := continued_prefix vs l (i + 1) (fun e he => h e (List.mem_cons_of_mem _ he)) hlt
      rw [List.drop_eq_getElem_cons hlt, hv]
      exact (List.cons_prefix_cons).2 ⟨rfl, ih⟩
    · exact List.nil_prefix

theorem prefix_append_drop {α : Type} {got vs ext : List α} (h : got <+: vs)
    (he : ext <+: vs.drop got.length) : got ++ ext <+: vs := by
  obtain ⟨r, rfl⟩ := h
  rw [List.drop_left] at he
  exact (List.prefix_append_right_inj got).2 he

/-- **C93**: whatever happens to the ledger in the meantime and whatever is asked for, what the
follower has is the beginning of the log, and it loses nothing. -/
theorem C93_faithful [Crypto] {y : Sys} (h : Reachable y) {got : List Value}
    (hg : got <+: Spec.servedLog y) (acts : List Spec.Act) :
    Reachable (Spec.followLog y got acts).1 ∧
    (Spec.followLog y got acts).2 <+: Spec.servedLog (Spec.followLog y got acts).1 ∧
    got <+: (Spec.followLog y got acts).2 := by
  induction acts generalizing y got with
  | nil => exact ⟨h, hg, List.prefix_refl _⟩
  | cons act acts ih =>
    cases act with
    | happens e =>
      refine ih (h.step e) (hg.trans ?_)
      obtain ⟨r, hr⟩ := C30_append_only h [e]
      exact ⟨r.map Block.toValue, by
        show List.map _ _ ++ List.map _ _ = List.map _ (y.run [e]).ledger.blocks
        rw [← hr, List.map_append]⟩
    | asks length =>
      have hp : got ++ Spec.continued got.length (getBlocks y.ledger [⟨got.length, length⟩]).2 <+:
          Spec.servedLog y := by
        refine prefix_append_drop hg (continued_prefix _ _ _ ?_ hg.length_le)
        intro e he
        obtain ⟨b, hb, hv⟩ := (C66_truthful y.ledger _).2 e he
        show (List.map _ _)[e.1]? = _
        rw [List.getElem?_map, hb, hv]
        rfl
      obtain ⟨h1, h2, h3⟩ := ih h hp
      exact ⟨h1, h2, (List.prefix_append _ _).trans h3⟩

theorem continued_numbered (vs : List Value) : ∀ (n m : Nat),
    Spec.continued n ((vs.mapIdx (fun i v => (n + i, v))).take m) = vs.take m := by
  induction vs with
  | nil => intro n m; simp [Spec.continued]
  | cons v vs ih =>
    intro n m
    cases m with
    | zero => simp [Spec.continued]
    | succ m =>
      rw [List.mapIdx_cons, List.take_succ_cons, List.take_succ_cons]
      show (if n + 0 = n then _ else _) = _
      rw [if_pos (Nat.add_zero n)]
      have := ih (n + 1) m
      simp only [Nat.add_assoc, Nat.add_comm 1] at this
      rw [this]

/-- **C93**: every answer brings as many of the blocks that are there as were asked for, up to the
advertised limit (as long as log length and limit fit 64 bits). -/
theorem C93_progress [Crypto] {y : Sys} {got : List Value} (hg : got <+: Spec.servedLog y)
    (hlim : y.ledger.blocks.length + y.ledger.config.maxBlocksPerRequest < 2 ^ 64) {length : Nat}
    (hl : length < 2 ^ 64) :
    Spec.followLog y got [.asks length] = (y, (Spec.servedLog y).take
      (got.length + min y.ledger.config.maxBlocksPerRequest length)) := by
  have hq : (getBlocks y.ledger [⟨got.length, length⟩]).2 =
      (((Spec.servedLog y).drop got.length).mapIdx (fun i v => (got.length + i, v))).take
        (min y.ledger.config.maxBlocksPerRequest length) := by
    rw [C34_get_blocks_partial _ _ hlim (by simpa using hl)]
    simp only [Spec.requested, List.flatMap_cons, List.flatMap_nil, List.append_nil,
      List.take_take]
    congr 1
    apply List.ext_getElem?
    intro i
    simp [Spec.numbered, Spec.servedLog, List.getElem?_mapIdx]
    rfl
  obtain ⟨r, hr⟩ := hg
  unfold Spec.followLog Spec.followLog
  rw [hq, continued_numbered, ← hr, List.drop_left, List.take_length_add_append]

/-- **C93**: when the ledger rests, the follower has caught up after finitely many questions. -/
theorem C93_caught_up [Crypto] {y : Sys} {got : List Value} (hg : got <+: Spec.servedLog y)
    (hlim : y.ledger.blocks.length + y.ledger.config.maxBlocksPerRequest < 2 ^ 64)
    {length : Nat} (hl : length < 2 ^ 64) {n : Nat}
    (hn : y.ledger.blocks.length ≤ got.length + n * min y.ledger.config.maxBlocksPerRequest length) :
    Spec.followLog y got (List.replicate n (.asks length)) = (y, Spec.servedLog y) := by
  induction n generalizing got with
  | zero =>
    have : got = Spec.servedLog y := by
      refine hg.eq_of_length_le ?_
      simp only [Spec.servedLog, List.length_map]
      omega
    rw [this]; rfl
  | succ n ih =>
    have h1 := C93_progress hg hlim hl
    unfold Spec.followLog Spec.followLog at h1
    have h2 := congrArg Prod.snd h1
    simp only at h2
    rw [List.replicate_succ]
    unfold Spec.followLog
    rw [h2]
    refine ih (List.take_prefix _ _) ?_
    rw [List.length_take]
    simp only [Spec.servedLog, List.length_map]
    rw [Nat.succ_mul] at hn
    omega

open Toy in
/-- A follower of a ledger that returns at most two blocks per request: after three questions, with
a transfer in between, it has all five blocks. -/
example : ∃ y : Sys, Reachable y ∧ y.ledger.config.maxBlocksPerRequest = 2 ∧
    (Spec.followLog y [] [.asks 5, .happens (xfer alice bob 7), .asks 5]).2.length = 4 ∧
    (Spec.followLog y [] [.asks 5, .happens (xfer alice bob 7), .asks 5, .asks 5]).2.length = 5 ∧
    (y.step (xfer alice bob 7)).1.ledger.blocks.length = 5 :=
  ⟨start.run [dep alice 1000000000000, xfer alice bob 5, xfer alice bob 5, xfer alice bob 6,
    ⟨1, .upgrade (.upgrade (some ⟨some 2, none⟩))⟩], run_reachable _, by decide +kernel,
    by decide +kernel, by decide +kernel, by decide +kernel⟩

end CyclesLedger
