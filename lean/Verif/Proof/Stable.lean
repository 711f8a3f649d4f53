import Verif.Model.Stable
import Verif.Proof.Wire
import Verif.Proof.Keys
/-!
# Stable memory: reading what was written
-/
namespace CyclesLedger

/-! ## Bounded `Storable` types -/

/-- On the values with `P`: the bytes are no longer than the bound, exactly as long as it if the
size is fixed, and read as the value. -/
structure Storable.Sound {A : Type} (s : Storable A) (P : A → Prop) : Prop where
  le : ∀ a, P a → (s.toBytes a).length ≤ s.max
  fix : s.fixed = true → ∀ a, P a → (s.toBytes a).length = s.max
  read : ∀ a, P a → s.ofBytes (s.toBytes a) = some a

theorem storableUInt_sound (len : Nat) : (storableUInt len).Sound (fun n => n < 256 ^ len) where
  le n _ := by simp [storableUInt, beBytes_length]
  fix _ n _ := by simp [storableUInt, beBytes_length]
  read n h := by simp [storableUInt, beBytes_length, beNat_beBytes len n h]

theorem storableUnit_sound : storableUnit.Sound (fun _ => True) where
  le _ _ := by simp [storableUnit]
  fix _ _ _ := by simp [storableUnit]
  read _ _ := by simp [storableUnit]

theorem storablePrincipal_sound : storablePrincipal.Sound (fun _ => True) where
  le p _ := p.le
  fix h := by simp [storablePrincipal] at h
  read p _ := by simp [storablePrincipal, p.le]

theorem storableBytes32_sound : storableBytes32.Sound (fun _ => True) where
  le b _ := by simp [storableBytes32, b.property]
  fix _ b _ := by simp [storableBytes32, b.property]
  read b _ := by simp [storableBytes32, b.property]

theorem storableOption_sound {A : Type} {s : Storable A} {P : A → Prop} (h : s.Sound P) :
    (storableOption s).Sound (fun o => ∀ a, o = some a → P a) where
  le o ho := by
    cases o with
    | none => simp [storableOption]
    | some a => have := h.le a (ho a rfl); simp [storableOption]; omega
  fix hf := by simp [storableOption] at hf
  read o ho := by
    cases o with
    | none => simp [storableOption]
    | some a => simp [storableOption, h.read a (ho a rfl)]

theorem take_field (a b : Bytes) : (a ++ b).take a.length = a := by simp
theorem drop_field {a b : Bytes} {n : Nat} (h : a.length = n) : (a ++ b).drop n = b := by
  subst h; simp

theorem sizeLen_small {A : Type} {s : Storable A} (hm : s.max < 256) (hf : s.fixed = false) :
    s.sizeLen = 1 := by
  unfold Storable.sizeLen
  rw [if_neg (by simp [hf]), if_pos (by omega)]

theorem storablePair_sound {A B : Type} {sa : Storable A} {sb : Storable B} {P : A → Prop}
    {Q : B → Prop} (ha : sa.Sound P) (hb : sb.Sound Q) (hma : sa.max < 256) (hmb : sb.max < 256) :
    (storablePair sa sb).Sound (fun x => P x.1 ∧ Q x.2) ∧
    ∀ x, P x.1 ∧ Q x.2 → ((storablePair sa sb).toBytes x).length = (storablePair sa sb).max := by
  have hlen : ∀ x, P x.1 ∧ Q x.2 →
      ((storablePair sa sb).toBytes x).length = (storablePair sa sb).max := by
    rintro ⟨x, y⟩ ⟨hx, hy⟩
    have h1 := ha.le x hx
    have h2 := hb.le y hy
    simp only [storablePair, List.length_append, List.length_replicate, beBytes_length]
    omega
  refine ⟨⟨fun x hx => Nat.le_of_eq (hlen x hx), fun _ => hlen, ?_⟩, hlen⟩
  intro x hx
  have hl := hlen x hx
  obtain ⟨x, y⟩ := x
  obtain ⟨hx, hy⟩ := hx
  have h1 := ha.le x hx
  have h2 := hb.le y hy
  show (if ((storablePair sa sb).toBytes (x, y)).length =
    sa.max + sb.max + sa.sizeLen + sb.sizeLen then _ else none) = some (x, y)
  rw [if_pos (show _ = sa.max + sb.max + sa.sizeLen + sb.sizeLen from hl)]
  have hA : (sa.toBytes x ++ List.replicate (sa.max - (sa.toBytes x).length) (0 : UInt8)).length =
      sa.max := by simp; omega
  have hB : (sb.toBytes y ++ List.replicate (sb.max - (sb.toBytes y).length) (0 : UInt8)).length =
      sb.max := by simp; omega
  have hd : ((storablePair sa sb).toBytes (x, y)).drop (sa.max + sb.max) =
      beBytes sa.sizeLen (sa.toBytes x).length ++ beBytes sb.sizeLen (sb.toBytes y).length := by
    rw [← List.drop_drop]
    show (List.drop sb.max (List.drop sa.max (_ ++ (_ ++ _)))) = _
    rw [drop_field hA, drop_field hB]
  have hd2 : ((storablePair sa sb).toBytes (x, y)).drop (sa.max + sb.max + sa.sizeLen) =
      beBytes sb.sizeLen (sb.toBytes y).length := by
    rw [← List.drop_drop, hd, drop_field (beBytes_length _ _)]
  have hla : (if sa.fixed then sa.max else Cbor.beNat
      ((((storablePair sa sb).toBytes (x, y)).drop (sa.max + sb.max)).take sa.sizeLen)) =
      (sa.toBytes x).length := by
    cases hf : sa.fixed with
    | true => rw [if_pos rfl]; exact (ha.fix hf x hx).symm
    | false =>
      rw [if_neg (by simp), hd]
      have := take_field (beBytes sa.sizeLen (sa.toBytes x).length)
        (beBytes sb.sizeLen (sb.toBytes y).length)
      rw [beBytes_length] at this
      rw [this, sizeLen_small hma hf, beNat_beBytes 1 _ (by omega)]
  have hlb : (if sb.fixed then sb.max else Cbor.beNat
      ((((storablePair sa sb).toBytes (x, y)).drop (sa.max + sb.max + sa.sizeLen)).take
        sb.sizeLen)) = (sb.toBytes y).length := by
    cases hf : sb.fixed with
    | true => rw [if_pos rfl]; exact (hb.fix hf y hy).symm
    | false =>
      rw [if_neg (by simp), hd2]
      have := take_field (beBytes sb.sizeLen (sb.toBytes y).length) []
      rw [beBytes_length, List.append_nil] at this
      rw [this, sizeLen_small hmb hf, beNat_beBytes 1 _ (by omega)]
  simp only [hla, hlb]
  have hta : ((storablePair sa sb).toBytes (x, y)).take (sa.toBytes x).length = sa.toBytes x := by
    show ((sa.toBytes x ++ _) ++ _).take _ = _
    rw [List.append_assoc]; exact take_field _ _
  have htb : (((storablePair sa sb).toBytes (x, y)).drop sa.max).take (sb.toBytes y).length =
      sb.toBytes y := by
    show (List.drop _ (_ ++ (_ ++ _))).take _ = _
    rw [drop_field hA, List.append_assoc]; exact take_field _ _
  rw [hta, htb, ha.read x hx, hb.read y hy]

theorem Storable.Sound.mono {A : Type} {s : Storable A} {P Q : A → Prop} (h : s.Sound P)
    (hq : ∀ a, Q a → P a) : s.Sound Q :=
  ⟨fun a ha => h.le a (hq a ha), fun hf a ha => h.fix hf a (hq a ha),
    fun a ha => h.read a (hq a ha)⟩

theorem Storable.Sound.inj {A : Type} {s : Storable A} {P : A → Prop} (h : s.Sound P) {a b : A}
    (ha : P a) (hb : P b) (he : s.toBytes a = s.toBytes b) : a = b := by
  have := h.read a ha
  rw [he, h.read b hb] at this
  exact (Option.some.inj this).symm

/-! ## Maps and the log -/

theorem ofEntries_map {K V : Type} [TotOrd K] {sk : Storable K} {sv : Storable V} {P : K → Prop}
    {Q : V → Prop} (hk : sk.Sound P) (hv : sv.Sound Q) :
    ∀ (l : List (K × V)) (hs : l.Pairwise (fun a b => TotOrd.lt a.1 b.1 = true)),
      (∀ e ∈ l, P e.1 ∧ Q e.2) →
      SMap.ofEntries sk sv (l.map (fun e => (sk.toBytes e.1, sv.toBytes e.2))) = some ⟨l, hs⟩
  | [], _, _ => rfl
  | (k, v) :: t, hs, h => by
    have h1 := h (k, v) List.mem_cons_self
    have h2 := ofEntries_map hk hv t (List.pairwise_cons.mp hs).2
      (fun e he => h e (List.mem_cons_of_mem _ he))
    simp only [List.map_cons, SMap.ofEntries, hk.read k h1.1, hv.read v h1.2, h2]
    congr 1
    unfold SMap.insert
    have h3 : SMap.insertL t k v = (k, v) :: t := by
      cases t with
      | nil => rfl
      | cons e t =>
        obtain ⟨k', v'⟩ := e
        have := (List.pairwise_cons.mp hs).1 (k', v') List.mem_cons_self
        simp only at this
        simp [SMap.insertL, this]
    simp only [h3]

theorem ofRegion_toRegion {K V : Type} [TotOrd K] {sk : Storable K} {sv : Storable V}
    {P : K → Prop} {Q : V → Prop} (hk : sk.Sound P) (hv : sv.Sound Q) (m : SMap K V)
    (h : ∀ k v, m.get k = some v → P k ∧ Q v) :
    SMap.ofRegion sk sv (some (m.toRegion sk sv)) = some m :=
  ofEntries_map hk hv m.entries m.sorted (fun e he => h e.1 e.2 ((m.get_eq_some_iff _ _).mpr he))

theorem logEntries_ends (l : List Bytes) : ∀ (pre : Bytes),
    logEntries (pre ++ l.flatten) pre.length (logEnds pre.length l) = l := by
  induction l with
  | nil => intro _; rfl
  | cons e t ih =>
    intro pre
    have := ih (pre ++ e)
    simp only [List.length_append, List.append_assoc] at this
    simp only [logEnds, logEntries, List.flatten_cons, this]
    congr 1
    rw [List.drop_left]
    simp

theorem readAllBytes_map : ∀ (l : List Block), (∀ b ∈ l, Block.ofBytes b.toBytes = some b) →
    blocksOfRegions.readAllBytes (l.map Block.toBytes) = some l
  | [], _ => rfl
  | b :: t, h => by
    simp only [List.map_cons, blocksOfRegions.readAllBytes, h b List.mem_cons_self,
      readAllBytes_map t (fun x hx => h x (List.mem_cons_of_mem _ hx))]

/-! ## The indices in the table of hashes -/

/-- The table names blocks of the log. -/
def IndexInv (s : State) : Prop :=
  ∀ h i c, s.transactionHashes.get h = some (i, c) → i < s.blocks.length

variable [Crypto]

theorem IndexInv.pruneTx {s : State} (hi : IndexInv s) (now n : Nat) :
    IndexInv (pruneTransactions now s n) := by
  induction n generalizing s with
  | zero => exact hi
  | succ n ih =>
    unfold pruneTransactions
    split
    · exact hi
    · split
      · exact hi
      · simp only
        split
        · exact ih hi
        · split
          · exact ih hi
          · refine ih ?_
            intro h i c hg
            simp only [SMap.get_erase] at hg
            split at hg
            · cases hg
            · exact hi h i c hg

theorem IndexInv.atom {now : Nat} {s s' : State} (ha : Atom now s s') (hl : LInv now s)
    (hi : IndexInv s) : IndexInv s' := by
  cases ha with
  | @append _ t h =>
    intro k i c hg
    rw [h.blocks, List.length_append]
    cases hc : t.createdAtTime with
    | none =>
      have hh : s'.transactionHashes = s.transactionHashes := by
        rw [h.hashes]; simp [pushBlock, mkBlock, hc]
      rw [hh] at hg
      have := hi k i c hg
      omega
    | some ts =>
      have hh : s'.transactionHashes =
          s.transactionHashes.insert t.hash! (s.blocks.length, none) := by
        rw [h.hashes]; simp [pushBlock, mkBlock, hc]
      rw [hh, SMap.get_insert] at hg
      split at hg
      · cases hg; simp
      · have := hi k i c hg
        omega
  | prune =>
    have h1 := pruneApprovals_spec (now := now) hl.queue APPROVE_PRUNE_LIMIT
    refine IndexInv.pruneTx ?_ _ _
    unfold IndexInv
    rw [h1.same.blocks, h1.same.hashes]
    exact hi
  | mark i b c hb hcon =>
    intro k j d hg
    simp only [SMap.get_insert] at hg
    split at hg
    · cases hg; exact (List.getElem?_eq_some_iff.mp hb).1
    · exact hi k j d hg
  | reload c => exact hi

theorem IndexInv.chain {now : Nat} {s s' : State} (hc : Chain now s s') (hl : LInv now s)
    (hi : IndexInv s) : IndexInv s' := by
  induction hc with
  | refl => exact hi
  | tail h1 ha ih => exact ih.atom ha (hl.chain h1)

omit [Crypto] in
theorem IndexInv.empty : IndexInv State.empty := by
  intro h i c hg; simp [State.empty, SMap.get_empty] at hg

theorem Reachable.indices {y : Sys} (h : Reachable y) : IndexInv y.ledger := by
  obtain ⟨config, now, cycles, y0, es, h0, rfl⟩ := h
  have hi0 := SInv.init h0
  have hk0 : IndexInv y0.ledger := by
    unfold Sys.init initLedger at h0
    rw [Option.map_eq_some_iff] at h0
    obtain ⟨s, h1, rfl⟩ := h0
    split at h1
    · cases h1
    · rename_i s0 hm
      simp only [Option.some.injEq] at h1
      subst h1
      have : IndexInv s0 :=
        IndexInv.empty.chain (mintInitial_chain hm) (LInv.empty (Nat.min_le_right _ _))
      exact this
  clear h0
  induction es generalizing y0 with
  | nil => exact hk0
  | cons e es ih =>
    refine ih _ (hi0.step e) ?_
    have hm := exec_moved (hi0.tick e.dt) e.msg
    exact IndexInv.chain hm.chain (hi0.tick e.dt).ledger hk0

end CyclesLedger
