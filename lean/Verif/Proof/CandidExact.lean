import Verif.Proof.CandidBase
/-! # Candid: what is read is what may be written, and nothing else -/
namespace CyclesLedger.Candid
open CyclesLedger.Spec.Candid

/-- The reader `f` takes the bytes that `w` allows off the front, and refuses all others. -/
def Exact {A : Type} (f : Bytes → Option (A × Bytes)) (w : A → Bytes → Prop) : Prop :=
  ∀ bs a rest, f bs = some (a, rest) ↔ ∃ x, bs = x ++ rest ∧ w a x

/-- One reader, and then another. -/
def bindR {A B : Type} (f : Bytes → Option (A × Bytes)) (g : A → Bytes → Option (B × Bytes))
    (bs : Bytes) : Option (B × Bytes) :=
  match f bs with
  | none => none
  | some (a, rest) => g a rest

/-- A byte, and then another reader. -/
def headR {A : Type} (g : UInt8 → Bytes → Option (A × Bytes)) (bs : Bytes) :
    Option (A × Bytes) :=
  match bs with
  | [] => none
  | b :: rest => g b rest

section
variable {A B : Type} {f f' : Bytes → Option (A × Bytes)} {w w' : A → Bytes → Prop}

theorem Exact.congr (h : Exact f w) (e : ∀ a x, w a x ↔ w' a x) : Exact f w' := by
  intro bs a rest
  rw [h bs a rest]
  simp only [e]

theorem Exact.of_eq (h : Exact f' w) (e : ∀ bs, f bs = f' bs) : Exact f w := by
  intro bs a rest
  rw [e]
  exact h bs a rest

theorem Exact.to (h : Exact f' w') (e : ∀ bs, f bs = f' bs) (c : ∀ a x, w' a x ↔ w a x) :
    Exact f w := (h.congr c).of_eq e

theorem Exact.fail : Exact (fun _ => (none : Option (A × Bytes))) (fun _ _ => False) := by
  intro bs a rest
  exact ⟨(fun h => by cases h), fun ⟨_, _, h⟩ => h.elim⟩

theorem Exact.pure (a : A) : Exact (fun bs => some (a, bs)) (fun b bs => b = a ∧ bs = []) := by
  intro bs b rest
  constructor
  · intro h
    cases h
    exact ⟨[], rfl, rfl, rfl⟩
  · rintro ⟨_, rfl, rfl, rfl⟩
    rfl

theorem Exact.ite {c : Prop} [Decidable c] (h : Exact f w) (h' : Exact f' w') :
    Exact (fun bs => if c then f bs else f' bs) (fun a bs => (c ∧ w a bs) ∨ (¬ c ∧ w' a bs)) := by
  by_cases hc : c
  · simp only [hc, if_true, not_true_eq_false, false_and, or_false, true_and]
    exact h
  · simp only [hc, if_false, not_false_eq_true, false_and, false_or, true_and]
    exact h'

theorem Exact.head {g : UInt8 → Bytes → Option (A × Bytes)} {w : UInt8 → A → Bytes → Prop}
    (hg : ∀ b, Exact (g b) (w b)) :
    Exact (headR g)
      (fun a bs => ∃ b y, bs = b :: y ∧ w b a y) := by
  intro bs a rest
  constructor
  · intro h
    cases bs with
    | nil => cases h
    | cons b bs =>
      obtain ⟨y, rfl, hy⟩ := (hg b _ _ _).mp h
      exact ⟨b :: y, rfl, b, y, rfl, hy⟩
  · rintro ⟨_, rfl, b, y, rfl, hy⟩
    exact (hg b _ _ _).mpr ⟨y, rfl, hy⟩

theorem Exact.bind {g : A → Bytes → Option (B × Bytes)} {w' : A → B → Bytes → Prop}
    (hf : Exact f w) (hg : ∀ a, Exact (g a) (w' a)) :
    Exact (bindR f g)
      (fun b bs => ∃ a x y, bs = x ++ y ∧ w a x ∧ w' a b y) := by
  intro bs b rest
  constructor
  · intro h
    cases e : f bs with
    | none => simp only [bindR, e] at h; cases h
    | some p =>
      obtain ⟨a, r⟩ := p
      simp only [bindR, e] at h
      obtain ⟨x, rfl, hx⟩ := (hf _ _ _).mp e
      obtain ⟨y, rfl, hy⟩ := (hg a _ _ _).mp h
      exact ⟨x ++ y, (List.append_assoc _ _ _).symm, a, x, y, rfl, hx, hy⟩
  · rintro ⟨_, rfl, a, x, y, rfl, hx, hy⟩
    have : f (x ++ y ++ rest) = some (a, y ++ rest) :=
      (hf _ _ _).mpr ⟨x, List.append_assoc _ _ _, hx⟩
    simp only [bindR, this]
    exact (hg a _ _ _).mpr ⟨y, rfl, hy⟩

theorem Exact.map (h : A → B) (hf : Exact f w) :
    Exact (fun bs => (f bs).map (fun p => (h p.1, p.2))) (fun b bs => ∃ a, b = h a ∧ w a bs) := by
  intro bs b rest
  simp only [Option.map_eq_some_iff, Prod.exists, Prod.mk.injEq]
  constructor
  · rintro ⟨a, r, h1, rfl, rfl⟩
    obtain ⟨x, h1, h2⟩ := (hf _ _ _).mp h1
    exact ⟨x, h1, a, rfl, h2⟩
  · rintro ⟨x, h1, a, rfl, h2⟩
    exact ⟨a, rest, (hf _ _ _).mpr ⟨x, h1, h2⟩, rfl, rfl⟩

theorem Exact.many (hf : Exact f w) : ∀ n, Exact (readMany f n)
    (fun l bs => l.length = n ∧ Many w l bs)
  | 0 => by
    refine (Exact.pure ([] : List A)).congr (fun l bs => ?_)
    cases l <;> simp [Many]
  | n + 1 => by
    refine (Exact.bind hf (fun a => (Exact.bind (Exact.many hf n)
      (fun as => Exact.pure (a :: as))))).to (fun bs => by grind [readMany, bindR, headR]) (fun l bs => ?_)
    constructor
    · rintro ⟨a, x, _, rfl, hx, as, y, _, rfl, ⟨hl, hy⟩, rfl, rfl⟩
      exact ⟨by simp [hl], x, y, by simp, hx, hy⟩
    · rintro ⟨hl, hm⟩
      cases l with
      | nil => cases hl
      | cons a as =>
        obtain ⟨x, y, rfl, hx, hy⟩ := hm
        exact ⟨a, x, y, rfl, hx, as, y, [], by simp, ⟨by simpa using hl, hy⟩, rfl, rfl⟩

end

/-! ## Numbers and bytes -/

theorem exact_unleb : Exact unleb (fun n bs => Unsigned bs n) := by
  intro bs
  induction bs with
  | nil =>
    intro n rest
    refine ⟨(fun h => by cases h), ?_⟩
    rintro ⟨x, h, hx⟩
    cases x with
    | nil => exact hx.elim
    | cons _ _ => cases h
  | cons b bs ih =>
    intro n rest
    rw [unleb]
    constructor
    · intro h
      split at h
      · rename_i hb
        cases h
        exact ⟨[b], rfl, .inl ⟨hb, rfl, rfl⟩⟩
      · rename_i hb
        cases e : unleb bs with
        | none => rw [e] at h; cases h
        | some p =>
          rw [e] at h
          obtain ⟨m, r⟩ := p
          cases h
          obtain ⟨x, rfl, hx⟩ := (ih m rest).mp e
          exact ⟨b :: x, rfl, .inr ⟨by omega, m, hx, rfl⟩⟩
    · rintro ⟨x, h, hx⟩
      cases x with
      | nil => exact hx.elim
      | cons c x =>
        cases h
        rcases hx with ⟨hb, rfl, rfl⟩ | ⟨hb, m, hm, rfl⟩
        · rw [if_pos hb]; rfl
        · rw [if_neg (by omega), (ih m rest).mpr ⟨x, rfl, hm⟩]

theorem exact_unsleb : Exact unsleb RefBytes := by
  intro bs
  induction bs with
  | nil =>
    intro n rest
    refine ⟨(fun h => by cases h), ?_⟩
    rintro ⟨x, h, hx⟩
    cases x with
    | nil => exact hx.elim
    | cons _ _ => cases h
  | cons b bs ih =>
    intro n rest
    rw [unsleb]
    constructor
    · intro h
      split at h
      · rename_i hb
        cases h
        exact ⟨[b], rfl, .inl ⟨hb, rfl⟩⟩
      · rename_i hb
        split at h
        · rename_i hb'
          cases h
          exact ⟨[b], rfl, .inr ⟨by omega, hb', rfl⟩⟩
        · rename_i hb'
          cases e : unsleb bs with
          | none => rw [e] at h; cases h
          | some p =>
            rw [e] at h
            obtain ⟨m, r⟩ := p
            cases h
            obtain ⟨x, rfl, hx⟩ := (ih m rest).mp e
            refine ⟨b :: x, rfl, ?_⟩
            cases x with
            | nil => exact hx.elim
            | cons c x => exact ⟨by omega, m, hx, rfl⟩
    · rintro ⟨x, h, hx⟩
      cases x with
      | nil => exact hx.elim
      | cons c x =>
        cases h
        cases x with
        | nil =>
          rcases hx with ⟨hb, rfl⟩ | ⟨hb, hb', rfl⟩
          · rw [if_pos hb]; rfl
          · rw [if_neg (by omega), if_pos hb']; rfl
        | cons c x =>
          obtain ⟨hb, m, hm, rfl⟩ := hx
          rw [if_neg (by omega), if_neg (by omega), (ih m rest).mpr ⟨c :: x, rfl, hm⟩]

theorem exact_unint : Exact unint (fun b bs => bs = b ∧ Continued b) := by
  intro bs
  induction bs with
  | nil =>
    intro n rest
    refine ⟨(fun h => by cases h), ?_⟩
    rintro ⟨x, h, rfl, hx⟩
    cases x with
    | nil => exact hx.elim
    | cons _ _ => cases h
  | cons b bs ih =>
    intro n rest
    rw [unint]
    constructor
    · intro h
      split at h
      · rename_i hb
        cases h
        exact ⟨[b], rfl, rfl, hb⟩
      · rename_i hb
        cases e : unint bs with
        | none => rw [e] at h; cases h
        | some p =>
          rw [e] at h
          obtain ⟨m, r⟩ := p
          cases h
          obtain ⟨x, rfl, rfl, hx⟩ := (ih m rest).mp e
          refine ⟨b :: x, rfl, rfl, ?_⟩
          cases x with
          | nil => exact hx.elim
          | cons c x => exact ⟨by omega, hx⟩
    · rintro ⟨x, h, rfl, hx⟩
      have := unint_continued x rest hx
      rw [← h, unint] at this
      exact this

theorem exact_takeBytes (n : Nat) : Exact (takeBytes n) (fun b bs => bs = b ∧ b.length = n) := by
  intro bs b rest
  unfold takeBytes
  constructor
  · intro h
    split at h
    · rename_i hn
      cases h
      exact ⟨bs.take n, (List.take_append_drop n bs).symm, rfl, by rw [List.length_take]; omega⟩
    · cases h
  · rintro ⟨x, rfl, rfl, rfl⟩
    simp

theorem exact_takeBlob : Exact takeBlob Sized := by
  refine (Exact.bind exact_unleb (fun n => exact_takeBytes n)).to (fun bs => by grind [takeBlob, bindR, headR])
    (fun b bs => ?_)
  constructor
  · rintro ⟨n, x, _, rfl, hx, rfl, rfl⟩
    exact ⟨x, rfl, hx⟩
  · rintro ⟨x, rfl, hx⟩
    exact ⟨_, x, b, rfl, hx, rfl, rfl⟩

theorem exact_readId : Exact readId (fun p bs => p.length ≤ 29 ∧ ∃ x, bs = 1 :: x ∧ Sized p x) := by
  refine (Exact.head (fun b => Exact.ite (c := b = 1) (Exact.bind exact_takeBlob
    (fun p => Exact.ite (c := p.length ≤ 29) (Exact.pure p) Exact.fail)) Exact.fail)).to
    (fun bs => by cases bs <;> grind [readId, bindR, headR]) (fun p bs => ?_)
  constructor
  · rintro ⟨b, y, rfl, ⟨rfl, p', x, _, rfl, hx, ⟨h1, rfl, rfl⟩ | ⟨_, h⟩⟩ | ⟨_, h⟩⟩
    · exact ⟨h1, x, by simp, hx⟩
    · exact h.elim
    · exact h.elim
  · rintro ⟨h1, x, rfl, hx⟩
    exact ⟨1, x, rfl, .inl ⟨rfl, p, x, [], by simp, hx, .inl ⟨h1, rfl, rfl⟩⟩⟩

theorem exact_readFun : Exact readFun (fun p bs => p.1.length ≤ 29 ∧
    ∃ x y, bs = 1 :: 1 :: (x ++ y) ∧ Sized p.1 x ∧ Sized p.2 y) := by
  refine (Exact.head (fun b => Exact.ite (c := b = 1) (Exact.bind exact_readId
    (fun p => Exact.map (fun m => (p, m)) exact_takeBlob)) Exact.fail)).to
    (fun bs => by cases bs <;> grind [readFun, bindR, headR]) (fun p bs => ?_)
  constructor
  · rintro ⟨b, y, rfl, ⟨rfl, p', _, y', rfl, ⟨h1, x, rfl, hx⟩, m, rfl, hm⟩ | ⟨_, h⟩⟩
    · exact ⟨h1, x, y', rfl, hx, hm⟩
    · exact h.elim
  · rintro ⟨h1, x, y, rfl, hx, hy⟩
    exact ⟨1, _, rfl, .inl ⟨rfl, p.1, 1 :: x, y, rfl, ⟨h1, x, rfl, hx⟩, p.2, rfl, hy⟩⟩

/-! ## Values -/

theorem many_and {A : Type} {p : A → Prop} {w : A → Bytes → Prop} : ∀ (l : List A) (bs : Bytes),
    Many (fun a bs => p a ∧ w a bs) l bs ↔ (∀ a ∈ l, p a) ∧ Many w l bs
  | [], bs => by simp [Many]
  | a :: as, bs => by
    simp only [Many, many_and as]
    constructor
    · rintro ⟨x, y, rfl, ⟨h1, h2⟩, h3, h4⟩
      refine ⟨fun b hb => ?_, x, y, rfl, h2, h4⟩
      rcases List.mem_cons.mp hb with rfl | hb
      · exact h1
      · exact h3 b hb
    · rintro ⟨h1, x, y, rfl, h2, h3⟩
      exact ⟨x, y, rfl, ⟨h1 a List.mem_cons_self, h2⟩,
        fun b hb => h1 b (List.mem_cons_of_mem _ hb), h3⟩

theorem valsBytes_ofList : ∀ (l : List Val) (bs : Bytes),
    ValsBytes (Vals.ofList l) bs ↔ Many ValBytes l bs
  | [], bs => by simp only [Vals.ofList, ValsBytes, Many]
  | v :: l, bs => by simp only [Vals.ofList, ValsBytes, Many, valsBytes_ofList l]

mutual
theorem exact_readVal : ∀ t : Ty, Exact (readVal t) (fun v bs => HasTy t v ∧ ValBytes v bs)
  | .null => by
    refine (Exact.pure Val.null).to (fun bs => by cases bs <;> grind [readVal, bindR, headR]) (fun v bs => ?_)
    simp only [HasTy]
    exact and_congr_right (fun h => by subst h; simp only [ValBytes])
  | .reserved => by
    refine (Exact.pure Val.reserved).to (fun bs => by cases bs <;> grind [readVal, bindR, headR]) (fun v bs => ?_)
    simp only [HasTy]
    exact and_congr_right (fun h => by subst h; simp only [ValBytes])
  | .bool => by
    refine (Exact.head (fun b => Exact.ite (c := b = 0) (Exact.pure (Val.bool false))
      (Exact.ite (c := b = 1) (Exact.pure (Val.bool true)) Exact.fail))).to
      (fun bs => by cases bs <;> grind [readVal, bindR, headR]) (fun v bs => ?_)
    simp only [HasTy]
    constructor
    · rintro ⟨b, y, rfl, ⟨rfl, rfl, rfl⟩ | ⟨_, ⟨rfl, rfl, rfl⟩ | ⟨_, h⟩⟩⟩
      · exact ⟨⟨_, rfl⟩, by simp [ValBytes]⟩
      · exact ⟨⟨_, rfl⟩, by simp [ValBytes]⟩
      · exact h.elim
    · rintro ⟨⟨b, rfl⟩, h⟩
      simp only [ValBytes] at h
      subst h
      cases b
      · exact ⟨0, [], rfl, .inl ⟨rfl, rfl, rfl⟩⟩
      · exact ⟨1, [], rfl, .inr ⟨by decide, .inl ⟨rfl, rfl, rfl⟩⟩⟩
  | .nat => by
    refine (Exact.map Val.nat exact_unleb).to (fun bs => by cases bs <;> grind [readVal, bindR, headR]) (fun v bs => ?_)
    simp only [HasTy]
    constructor
    · rintro ⟨n, rfl, h⟩; exact ⟨⟨n, rfl⟩, by simpa only [ValBytes]⟩
    · rintro ⟨⟨n, rfl⟩, h⟩; exact ⟨n, rfl, by simpa only [ValBytes] using h⟩
  | .int => by
    refine (Exact.map Val.int exact_unint).to (fun bs => by cases bs <;> grind [readVal, bindR, headR]) (fun v bs => ?_)
    simp only [HasTy]
    constructor
    · rintro ⟨n, rfl, h⟩; exact ⟨⟨n, rfl, h.2⟩, by simp only [ValBytes]; exact h.1⟩
    · rintro ⟨⟨n, rfl, h'⟩, h⟩; exact ⟨n, rfl, by simpa only [ValBytes] using h, h'⟩
  | .text => by
    refine (Exact.map Val.text exact_takeBlob).to (fun bs => by cases bs <;> grind [readVal, bindR, headR])
      (fun v bs => ?_)
    simp only [HasTy]
    constructor
    · rintro ⟨n, rfl, h⟩; exact ⟨⟨n, rfl⟩, by simpa only [ValBytes]⟩
    · rintro ⟨⟨n, rfl⟩, h⟩; exact ⟨n, rfl, by simpa only [ValBytes] using h⟩
  | .principal => by
    refine (Exact.map Val.principal exact_readId).to (fun bs => by cases bs <;> grind [readVal, bindR, headR])
      (fun v bs => ?_)
    simp only [HasTy]
    constructor
    · rintro ⟨n, rfl, h⟩; exact ⟨⟨n, rfl, h.1⟩, by simp only [ValBytes]; exact h.2⟩
    · rintro ⟨⟨n, rfl, h'⟩, h⟩; exact ⟨n, rfl, h', by simpa only [ValBytes] using h⟩
  | .service => by
    refine (Exact.map Val.service exact_readId).to (fun bs => by cases bs <;> grind [readVal, bindR, headR])
      (fun v bs => ?_)
    simp only [HasTy]
    constructor
    · rintro ⟨n, rfl, h⟩; exact ⟨⟨n, rfl, h.1⟩, by simp only [ValBytes]; exact h.2⟩
    · rintro ⟨⟨n, rfl, h'⟩, h⟩; exact ⟨n, rfl, h', by simpa only [ValBytes] using h⟩
  | .func => by
    refine (Exact.map (fun p => Val.func p.1 p.2) exact_readFun).to
      (fun bs => by cases bs <;> grind [readVal, bindR, headR]) (fun v bs => ?_)
    simp only [HasTy]
    constructor
    · rintro ⟨n, rfl, h⟩; exact ⟨⟨n.1, n.2, rfl, h.1⟩, by simp only [ValBytes]; exact h.2⟩
    · rintro ⟨⟨n, m, rfl, h'⟩, h⟩; exact ⟨(n, m), rfl, h', by simpa only [ValBytes] using h⟩
  | .empty => by
    refine Exact.fail.to (fun bs => by cases bs <;> grind [readVal, bindR, headR]) (fun v bs => ?_)
    simp only [HasTy, false_and]
  | .cut => by
    refine Exact.fail.to (fun bs => by cases bs <;> grind [readVal, bindR, headR]) (fun v bs => ?_)
    simp only [HasTy, false_and]
  | .fixed f => by
    refine (Exact.map Val.fixed (exact_takeBytes f.width)).to (fun bs => by cases bs <;> grind [readVal, bindR, headR])
      (fun v bs => ?_)
    simp only [HasTy]
    constructor
    · rintro ⟨n, rfl, h⟩; exact ⟨⟨n, rfl, h.2⟩, by simp only [ValBytes]; exact h.1⟩
    · rintro ⟨⟨n, rfl, h'⟩, h⟩; exact ⟨n, rfl, by simpa only [ValBytes] using h, h'⟩
  | .opt t => by
    refine (Exact.head (fun b => Exact.ite (c := b = 0) (Exact.pure Val.none)
      (Exact.ite (c := b = 1) (Exact.map Val.some (exact_readVal t)) Exact.fail))).to
      (fun bs => by cases bs <;> grind [readVal, bindR, headR]) (fun v bs => ?_)
    simp only [HasTy]
    constructor
    · rintro ⟨b, y, rfl, ⟨rfl, rfl, rfl⟩ | ⟨_, ⟨rfl, x, rfl, h1, h2⟩ | ⟨_, h⟩⟩⟩
      · exact ⟨.inl rfl, by simp only [ValBytes]⟩
      · exact ⟨.inr ⟨x, rfl, h1⟩, by simp only [ValBytes]; exact ⟨y, rfl, h2⟩⟩
      · exact h.elim
    · rintro ⟨rfl | ⟨x, rfl, hx⟩, h⟩ <;> simp only [ValBytes] at h
      · subst h; exact ⟨0, [], rfl, .inl ⟨rfl, rfl, rfl⟩⟩
      · obtain ⟨y, rfl, h⟩ := h
        exact ⟨1, y, rfl, .inr ⟨by decide, .inl ⟨rfl, x, rfl, hx, h⟩⟩⟩
  | .vec t => by
    refine (Exact.bind exact_unleb (fun n => Exact.map (fun l => Val.vec (Vals.ofList l))
      (Exact.many (exact_readVal t) n))).to (fun bs => by cases bs <;> grind [readVal, bindR, headR]) (fun v bs => ?_)
    rw [HasTy]
    constructor
    · rintro ⟨n, x, y, rfl, hx, l, rfl, rfl, hm⟩
      rw [many_and] at hm
      refine ⟨⟨l, rfl, hm.1⟩, ?_⟩
      simp only [ValBytes, toList_ofList, valsBytes_ofList]
      exact ⟨x, y, rfl, hx, hm.2⟩
    · rintro ⟨⟨l, rfl, hl⟩, h⟩
      simp only [ValBytes, toList_ofList, valsBytes_ofList] at h
      obtain ⟨x, y, rfl, hx, hm⟩ := h
      exact ⟨_, x, y, rfl, hx, l, rfl, rfl, (many_and l y).mpr ⟨hl, hm⟩⟩
  | .record fs => by
    refine (Exact.map Val.record (exact_readRecord fs)).to (fun bs => by cases bs <;> grind [readVal, bindR, headR])
      (fun v bs => ?_)
    rw [HasTy]
    constructor
    · rintro ⟨vs, rfl, h⟩; exact ⟨⟨vs, rfl, h.1⟩, by simp only [ValBytes]; exact h.2⟩
    · rintro ⟨⟨vs, rfl, h'⟩, h⟩; exact ⟨vs, rfl, h', by simpa only [ValBytes] using h⟩
  | .variant fs => by
    refine (Exact.bind exact_unleb (fun i => Exact.map (fun v => Val.variant i v)
      (exact_readCase fs i))).to (fun bs => by cases bs <;> grind [readVal, bindR, headR]) (fun v bs => ?_)
    rw [HasTy]
    constructor
    · rintro ⟨i, x, y, rfl, hx, v, rfl, h1, h2⟩
      exact ⟨⟨i, v, rfl, h1⟩, by simp only [ValBytes]; exact ⟨x, y, rfl, hx, h2⟩⟩
    · rintro ⟨⟨i, v, rfl, h1⟩, h⟩
      simp only [ValBytes] at h
      obtain ⟨x, y, rfl, hx, h2⟩ := h
      exact ⟨i, x, y, rfl, hx, v, rfl, h1, h2⟩
theorem exact_readRecord : ∀ fs : Fields,
    Exact (readRecord fs) (fun vs bs => HasTys fs vs ∧ ValsBytes vs bs)
  | .nil => by
    refine (Exact.pure Vals.nil).to (fun bs => by cases bs <;> grind [readRecord, bindR, headR]) (fun v bs => ?_)
    simp only [HasTys]
    exact and_congr_right (fun h => by subst h; simp only [ValsBytes])
  | .cons _ t fs => by
    refine (Exact.bind (exact_readVal t) (fun v => Exact.map (fun vs => Vals.cons v vs)
      (exact_readRecord fs))).to (fun bs => by cases bs <;> grind [readRecord, bindR, headR]) (fun v bs => ?_)
    rw [HasTys]
    constructor
    · rintro ⟨v, x, y, rfl, ⟨h1, h2⟩, vs, rfl, h3, h4⟩
      exact ⟨⟨v, vs, rfl, h1, h3⟩, by simp only [ValsBytes]; exact ⟨x, y, rfl, h2, h4⟩⟩
    · rintro ⟨⟨v, vs, rfl, h1, h3⟩, h⟩
      simp only [ValsBytes] at h
      obtain ⟨x, y, rfl, h2, h4⟩ := h
      exact ⟨v, x, y, rfl, ⟨h1, h2⟩, vs, rfl, h3, h4⟩
theorem exact_readCase : ∀ (fs : Fields) (i : Nat),
    Exact (readCase fs i) (fun v bs => HasCase fs i v ∧ ValBytes v bs)
  | .nil, i => by
    refine Exact.fail.to (fun bs => by cases bs <;> grind [readCase, bindR, headR]) (fun v bs => ?_)
    simp only [HasCase, false_and]
  | .cons _ t fs, 0 => by
    refine (exact_readVal t).to (fun bs => by cases bs <;> grind [readCase, bindR, headR]) (fun v bs => ?_)
    simp [HasCase]
  | .cons _ t fs, i + 1 => by
    refine (exact_readCase fs i).to (fun bs => by cases bs <;> grind [readCase, bindR, headR]) (fun v bs => ?_)
    simp [HasCase]
end

/-! ## The table -/

theorem pairwise_of_increasing : ∀ (fs : List (Nat × Int)), increasing fs = true →
    fs.Pairwise (fun a b => a.1 < b.1)
  | [], _ => List.Pairwise.nil
  | [_], _ => List.pairwise_singleton _ _
  | a :: b :: rest, h => by
    simp only [increasing, Bool.and_eq_true, decide_eq_true_eq] at h
    have ih := pairwise_of_increasing (b :: rest) h.2
    refine List.pairwise_cons.mpr ⟨fun c hc => ?_, ih⟩
    rcases List.mem_cons.mp hc with rfl | hc
    · exact h.1
    · exact Nat.lt_trans h.1 ((List.pairwise_cons.mp ih).1 c hc)

theorem lt_of_before : ∀ {a b : Bytes}, before a b = true → a < b
  | [], [], h => by cases h
  | _ :: _, [], h => by cases h
  | [], _ :: _, _ => List.nil_lt_cons _ _
  | a :: as, b :: bs, h => by
    rw [List.cons_lt_cons_iff]
    simp only [before, Bool.or_eq_true, decide_eq_true_eq, Bool.and_eq_true, beq_iff_eq] at h
    exact h.imp id (fun h => ⟨h.1, lt_of_before h.2⟩)

theorem pairwise_of_rising : ∀ (ms : List (Bytes × Int)), rising ms = true →
    ms.Pairwise (fun a b => a.1 < b.1)
  | [], _ => List.Pairwise.nil
  | [_], _ => List.pairwise_singleton _ _
  | a :: b :: rest, h => by
    simp only [rising, Bool.and_eq_true] at h
    have ih := pairwise_of_rising (b :: rest) h.2
    refine List.pairwise_cons.mpr ⟨fun c hc => ?_, ih⟩
    rcases List.mem_cons.mp hc with rfl | hc
    · exact lt_of_before h.1
    · exact List.lt_trans (lt_of_before h.1) ((List.pairwise_cons.mp ih).1 c hc)

/-- What does not depend on the rest of the table. -/
def Proper : Comp → Prop
  | .opt _ => True
  | .vec _ => True
  | .record fs => fs.Pairwise (fun a b => a.1 < b.1)
  | .variant fs => fs.Pairwise (fun a b => a.1 < b.1)
  | .func _ _ notes => notes ∈ [[], [1], [2], [3]]
  | .service ms => ms.Pairwise (fun a b => a.1 < b.1)

theorem exact_counted {A : Type} {f : Bytes → Option (A × Bytes)} {w : A → Bytes → Prop}
    (h : Exact f w) :
    Exact (bindR unleb (readMany f)) (Counted w) := by
  refine (Exact.bind exact_unleb (fun n => Exact.many h n)).congr (fun l bs => ?_)
  constructor
  · rintro ⟨n, x, y, rfl, hx, rfl, hy⟩; exact ⟨x, y, rfl, hx, hy⟩
  · rintro ⟨x, y, rfl, hx, hy⟩; exact ⟨_, x, y, rfl, hx, rfl, hy⟩

theorem exact_readRefs : Exact readRefs (Counted RefBytes) :=
  (exact_counted exact_unsleb).of_eq (fun bs => by grind [readRefs, bindR, headR])

theorem exact_readField : Exact readField FieldBytes := by
  refine (Exact.bind exact_unleb (fun l => Exact.map (fun r => (l, r)) exact_unsleb)).to
    (fun bs => by grind [readField, bindR, headR]) (fun p bs => ?_)
  constructor
  · rintro ⟨l, x, y, rfl, hx, r, rfl, hy⟩; exact ⟨x, y, rfl, hx, hy⟩
  · rintro ⟨x, y, rfl, hx, hy⟩; exact ⟨p.1, x, y, rfl, hx, p.2, rfl, hy⟩

theorem exact_readMethod : Exact readMethod MethodBytes := by
  refine (Exact.bind exact_takeBlob (fun l => Exact.map (fun r => (l, r)) exact_unsleb)).to
    (fun bs => by grind [readMethod, bindR, headR]) (fun p bs => ?_)
  constructor
  · rintro ⟨l, x, y, rfl, hx, r, rfl, hy⟩; exact ⟨x, y, rfl, hx, hy⟩
  · rintro ⟨x, y, rfl, hx, hy⟩; exact ⟨p.1, x, y, rfl, hx, p.2, rfl, hy⟩

theorem exact_readFields : Exact readFields (fun fs bs =>
    fs.Pairwise (fun a b => a.1 < b.1) ∧ Counted FieldBytes fs bs) := by
  refine (Exact.bind exact_unleb (fun n => Exact.bind (Exact.many exact_readField n)
    (fun fs => Exact.ite (c := increasing fs = true) (Exact.pure fs) Exact.fail))).to
    (fun bs => by grind [readFields, bindR, headR]) (fun p bs => ?_)
  constructor
  · rintro ⟨n, x, _, rfl, hx, fs, y, _, rfl, ⟨rfl, hy⟩, ⟨h, rfl, rfl⟩ | ⟨_, h⟩⟩
    · exact ⟨pairwise_of_increasing _ h, x, y, by simp, hx, hy⟩
    · exact h.elim
  · rintro ⟨h, x, y, rfl, hx, hy⟩
    exact ⟨_, x, y, rfl, hx, p, y, [], by simp, ⟨rfl, hy⟩,
      .inl ⟨increasing_of_pairwise _ h, rfl, rfl⟩⟩

theorem exact_readService : Exact readService (fun c bs => ∃ ms, c = .service ms ∧
    ms.Pairwise (fun a b => a.1 < b.1) ∧ Counted MethodBytes ms bs) := by
  refine (Exact.bind exact_unleb (fun n => Exact.bind (Exact.many exact_readMethod n)
    (fun ms => Exact.ite (c := rising ms = true) (Exact.pure (Comp.service ms)) Exact.fail))).to
    (fun bs => by grind [readService, bindR, headR]) (fun p bs => ?_)
  constructor
  · rintro ⟨n, x, _, rfl, hx, fs, y, _, rfl, ⟨rfl, hy⟩, ⟨h, rfl, rfl⟩ | ⟨_, h⟩⟩
    · exact ⟨fs, rfl, pairwise_of_rising _ h, x, y, by simp, hx, hy⟩
    · exact h.elim
  · rintro ⟨ms, rfl, h, x, y, rfl, hx, hy⟩
    exact ⟨_, x, y, rfl, hx, ms, y, [], by simp, ⟨rfl, hy⟩,
      .inl ⟨rising_of_pairwise _ h, rfl, rfl⟩⟩

theorem notes_iff (notes : Bytes) : (notes.length ≤ 1 ∧ ∀ n ∈ notes, 1 ≤ n.toNat ∧ n.toNat ≤ 3) ↔
    notes ∈ [[], [1], [2], [3]] := by
  constructor
  · rintro ⟨h1, h2⟩
    match notes, h1, h2 with
    | [], _, _ => simp
    | [n], _, h2 =>
      have := h2 n List.mem_cons_self
      have : n.toNat = (1 : UInt8).toNat ∨ n.toNat = (2 : UInt8).toNat ∨
          n.toNat = (3 : UInt8).toNat := by
        simp only [UInt8.reduceToNat]; omega
      rcases this with h | h | h <;> simp [UInt8.toNat_inj.mp h]
    | _ :: _ :: _, h1, _ => simp at h1
  · intro h
    simp only [List.mem_cons, List.not_mem_nil, or_false] at h
    rcases h with rfl | rfl | rfl | rfl <;> decide

theorem exact_readFunc : Exact readFunc (fun c bs => ∃ as rs notes, c = .func as rs notes ∧
    notes ∈ [[], [1], [2], [3]] ∧ ∃ a b d, bs = a ++ (b ++ d) ∧ Counted RefBytes as a ∧
        Counted RefBytes rs b ∧ Sized notes d) := by
  refine (Exact.bind exact_readRefs (fun as => Exact.bind exact_readRefs (fun rs =>
    Exact.bind exact_takeBlob (fun notes => Exact.ite
      (c := notes.length ≤ 1 ∧ ∀ n ∈ notes, 1 ≤ n.toNat ∧ n.toNat ≤ 3)
      (Exact.pure (Comp.func as rs notes)) Exact.fail)))).to
    (fun bs => by grind [readFunc, bindR, headR]) (fun p bs => ?_)
  constructor
  · rintro ⟨as, x, _, rfl, hx, rs, y, _, rfl, hy, notes, z, _, rfl, hz, ⟨h, rfl, rfl⟩ | ⟨_, h⟩⟩
    · exact ⟨as, rs, notes, rfl, (notes_iff notes).mp h, x, y, z, by simp, hx, hy, hz⟩
    · exact h.elim
  · rintro ⟨as, rs, notes, rfl, h, x, y, z, rfl, hx, hy, hz⟩
    exact ⟨as, x, _, rfl, hx, rs, y, _, rfl, hy, notes, z, [], by simp, hz,
      .inl ⟨(notes_iff notes).mpr h, rfl, rfl⟩⟩

theorem exact_readComp : Exact readComp (fun c bs => Proper c ∧ CompBytes c bs) := by
  refine (Exact.bind exact_unsleb (fun op =>
    Exact.ite (c := op = -18) (Exact.map Comp.opt exact_unsleb)
    (Exact.ite (c := op = -19) (Exact.map Comp.vec exact_unsleb)
    (Exact.ite (c := op = -20) (Exact.map Comp.record exact_readFields)
    (Exact.ite (c := op = -21) (Exact.map Comp.variant exact_readFields)
    (Exact.ite (c := op = -22) exact_readFunc
    (Exact.ite (c := op = -23) exact_readService Exact.fail))))))).to
    (fun bs => by grind [readComp, bindR, headR]) (fun c bs => ?_)
  constructor
  · rintro ⟨op, x, y, rfl, hx, ⟨rfl, h⟩ | ⟨_, ⟨rfl, h⟩ | ⟨_, ⟨rfl, h⟩ | ⟨_, ⟨rfl, h⟩ | ⟨_, ⟨rfl, h⟩ |
      ⟨_, ⟨rfl, h⟩ | ⟨_, h⟩⟩⟩⟩⟩⟩⟩
    · obtain ⟨r, rfl, h⟩ := h; exact ⟨trivial, x, y, rfl, hx, h⟩
    · obtain ⟨r, rfl, h⟩ := h; exact ⟨trivial, x, y, rfl, hx, h⟩
    · obtain ⟨r, rfl, h1, h2⟩ := h; exact ⟨h1, x, y, rfl, hx, h2⟩
    · obtain ⟨r, rfl, h1, h2⟩ := h; exact ⟨h1, x, y, rfl, hx, h2⟩
    · obtain ⟨as, rs, notes, rfl, h1, h2⟩ := h; exact ⟨h1, x, y, rfl, hx, h2⟩
    · obtain ⟨ms, rfl, h1, h2⟩ := h; exact ⟨h1, x, y, rfl, hx, h2⟩
    · exact h.elim
  · rintro ⟨hp, x, y, rfl, h⟩
    cases c with
    | opt r => exact ⟨_, x, y, rfl, h.1, by simpa using h.2⟩
    | vec r => exact ⟨_, x, y, rfl, h.1, by simpa using h.2⟩
    | record fs => exact ⟨_, x, y, rfl, h.1, by simpa using ⟨hp, h.2⟩⟩
    | variant fs => exact ⟨_, x, y, rfl, h.1, by simpa using ⟨hp, h.2⟩⟩
    | func as rs notes =>
      exact ⟨-22, x, y, rfl, h.1, .inr ⟨by decide, .inr ⟨by decide, .inr ⟨by decide, .inr ⟨by decide,
        .inl ⟨rfl, as, rs, notes, rfl, hp, h.2⟩⟩⟩⟩⟩⟩
    | service ms =>
      exact ⟨-23, x, y, rfl, h.1, .inr ⟨by decide, .inr ⟨by decide, .inr ⟨by decide, .inr ⟨by decide,
        .inr ⟨by decide, .inl ⟨rfl, ms, rfl, hp, h.2⟩⟩⟩⟩⟩⟩⟩

theorem of_refers {table : List Comp} {r : Int} (h : refers table r = true) : Refers table r := by
  unfold refers at h
  split at h
  · rename_i h0
    by_cases hr : (-17 ≤ r ∧ r ≤ -1) ∨ r = -24
    · rcases hr with hr | hr
      · exact .inl hr
      · exact .inr (.inl hr)
    · have : simple r = none := by
        unfold simple
        repeat rw [if_neg (by omega)]
      rw [this] at h; cases h
  · rename_i h0
    exact .inr (.inr ⟨_, by omega, List.getElem?_eq_getElem (of_decide_eq_true h)⟩)

theorem ok_iff {table : List Comp} {c : Comp} :
    CompOk table c ↔ Proper c ∧ closed table c = true := by
  constructor
  · intro h
    refine ⟨?_, closed_of_ok h⟩
    cases c with
    | opt r => trivial
    | vec r => trivial
    | record fs => exact h.1
    | variant fs => exact h.1
    | func as rs notes => exact h.2.2
    | service ms => exact h.1
  · rintro ⟨h, hc⟩
    cases c with
    | opt r => exact of_refers hc
    | vec r => exact of_refers hc
    | record fs => exact ⟨h, fun f hf => of_refers (List.all_eq_true.mp hc f hf)⟩
    | variant fs => exact ⟨h, fun f hf => of_refers (List.all_eq_true.mp hc f hf)⟩
    | func as rs notes =>
      simp only [closed, Bool.and_eq_true, List.all_eq_true] at hc
      exact ⟨fun r hr => of_refers (hc.1 r hr), fun r hr => of_refers (hc.2 r hr), h⟩
    | service ms =>
      simp only [closed, List.all_eq_true] at hc
      refine ⟨h, fun m hm => ?_⟩
      have := hc m hm
      simp only [isFunc, Bool.and_eq_true, decide_eq_true_eq] at this
      obtain ⟨h0, h1⟩ := this
      cases e : table[m.2.toNat]? with
      | none => rw [e] at h1; cases h1
      | some c =>
        rw [e] at h1
        cases c <;> first | exact ⟨_, _, _, h0, e⟩ | cases h1

/-! ## Written as short as possible -/

theorem unsigned_leb128 (n : Nat) : Unsigned (leb128 n) n := by
  have := unleb_leb128 n []
  rw [exact_unleb] at this
  obtain ⟨x, h1, h2⟩ := this
  simp only [List.append_nil] at h1
  rw [h1]; exact h2

theorem refBytes_ref {r : Int} (h : -24 ≤ r) : RefBytes r (ref r) := by
  have := unsleb_ref h []
  rw [exact_unsleb] at this
  obtain ⟨x, h1, h2⟩ := this
  simp only [List.append_nil] at h1
  rw [h1]; exact h2

theorem many_flatMap {A : Type} {w : A → Bytes → Prop} {g : A → Bytes} : ∀ l : List A,
    (∀ a ∈ l, w a (g a)) → Many w l (l.flatMap g)
  | [], _ => rfl
  | a :: as, h => ⟨g a, _, List.flatMap_cons, h a List.mem_cons_self,
      many_flatMap as (fun b hb => h b (List.mem_cons_of_mem _ hb))⟩

theorem counted_flatMap {A : Type} {w : A → Bytes → Prop} {g : A → Bytes} (l : List A)
    (h : ∀ a ∈ l, w a (g a)) : Counted w l (leb128 l.length ++ l.flatMap g) :=
  ⟨_, _, rfl, unsigned_leb128 _, many_flatMap l h⟩

theorem sized_leb128 (b : Bytes) : Sized b (leb128 b.length ++ b) := ⟨_, rfl, unsigned_leb128 _⟩

mutual
theorem valBytes_value : ∀ v : Val, ValBytes v (value v)
  | .null => by simp only [ValBytes, value]
  | .reserved => by simp only [ValBytes, value]
  | .bool _ => by simp only [ValBytes, value]
  | .nat n => by simp only [ValBytes, value]; exact unsigned_leb128 n
  | .int _ => by simp only [ValBytes, value]
  | .text b => by simp only [ValBytes, value]; exact sized_leb128 b
  | .principal b => by simp only [ValBytes, value]; exact ⟨_, rfl, sized_leb128 b⟩
  | .service b => by simp only [ValBytes, value]; exact ⟨_, rfl, sized_leb128 b⟩
  | .func b m => by
    simp only [ValBytes, value]
    exact ⟨_, _, by simp only [List.append_assoc], sized_leb128 b, sized_leb128 m⟩
  | .fixed _ => by simp only [ValBytes, value]
  | .none => by simp only [ValBytes, value]
  | .some v => by simp only [ValBytes, value]; exact ⟨_, rfl, valBytes_value v⟩
  | .vec vs => by
    simp only [ValBytes, value]; exact ⟨_, _, rfl, unsigned_leb128 _, valsBytes_values vs⟩
  | .record vs => by simp only [ValBytes, value]; exact valsBytes_values vs
  | .variant i v => by
    simp only [ValBytes, value]; exact ⟨_, _, rfl, unsigned_leb128 i, valBytes_value v⟩
theorem valsBytes_values : ∀ vs : Vals, ValsBytes vs (values vs)
  | .nil => by simp only [ValsBytes, values]
  | .cons v vs => by
    simp only [ValsBytes, values]; exact ⟨_, _, rfl, valBytes_value v, valsBytes_values vs⟩
end

theorem compBytes_comp {table : List Comp} {c : Comp} (h : CompOk table c) :
    CompBytes c (comp c) := by
  have := readComp_comp c [] h
  rw [exact_readComp] at this
  obtain ⟨x, h1, h2⟩ := this
  simp only [List.append_nil] at h1
  rw [h1]; exact h2.2

theorem messageBytes_message {table : List Comp} {refs : List Int} (args : List (Ty × Val))
    (hc : ∀ c ∈ table, CompOk table c) (hr : ∀ r ∈ refs, -24 ≤ r) :
    MessageBytes table refs args (message table refs args) :=
  ⟨_, _, _, by simp only [message, List.append_assoc],
    counted_flatMap table (fun c h => compBytes_comp (hc c h)),
    counted_flatMap refs (fun r h => refBytes_ref (hr r h)),
    many_flatMap args (fun a _ => valBytes_value a.2)⟩

end CyclesLedger.Candid
