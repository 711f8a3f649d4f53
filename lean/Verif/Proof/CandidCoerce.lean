import Verif.Spec.CandidCoerce
import Verif.Proof.CandidLife
/-!
# Reading a value at another type: proofs
-/
namespace CyclesLedger.Candid

open Spec.Candid

/-- `d` reads as the specification says: at the type `e`, with the value `f a` for `a`. -/
structure Coercing {A : Type} (d : Des A) (e : Ty) (f : A → Val) : Prop where
  sub : ∀ t, Sorted t → (accepts d.ty t = true ↔ Below e t)
  opt : d.ty.optional = true ↔ ∃ v, Omitted e v
  miss : ∀ a, d.missing = some a ↔ Omitted e (f a)
  get : ∀ t v a, Sorted t → HasTy t v → Below e t → (d.get t v = some a ↔ Coerces e t v (f a))

theorem coercing_nat : Coercing desNat .nat Val.nat where
  sub := by intro t _; cases t <;> simp [desNat, accepts, Below]
  opt := by simp [desNat, Ty.optional, Omitted]
  miss := by simp [desNat, Omitted]
  get := by
    intro t v a _ ht hb
    rw [Below] at hb
    rcases hb with rfl | rfl
    · rw [HasTy] at ht; obtain ⟨n, rfl⟩ := ht
      simp only [desNat, Coerces, Option.some.injEq, Val.nat.injEq]
      exact eq_comm
    · simp only [HasTy] at ht

theorem coercing_text : Coercing desText .text Val.text where
  sub := by intro t _; cases t <;> simp [desText, accepts, Below]
  opt := by simp [desText, Ty.optional, Omitted]
  miss := by simp [desText, Omitted]
  get := by
    intro t v a _ ht hb
    rw [Below] at hb
    rcases hb with rfl | rfl
    · rw [HasTy] at ht; obtain ⟨n, rfl⟩ := ht
      simp only [desText, Coerces, Option.some.injEq, Val.text.injEq]
      exact eq_comm
    · simp only [HasTy] at ht

theorem coercing_principal : Coercing desPrincipal .principal Mean.principal where
  sub := by intro t _; cases t <;> simp [desPrincipal, accepts, Below]
  opt := by simp [desPrincipal, Ty.optional, Omitted]
  miss := by simp [desPrincipal, Omitted]
  get := by
    intro t v a _ ht hb
    rw [Below] at hb
    rcases hb with rfl | rfl
    · rw [HasTy] at ht; obtain ⟨n, rfl, hn⟩ := ht
      simp only [desPrincipal, Coerces, Mean.principal, Val.principal.injEq]
      rw [dif_pos hn]
      constructor
      · rintro h; cases h; rfl
      · rintro rfl; rfl
    · simp only [HasTy] at ht

theorem nat64_iff {bs : Bytes} (h : bs.length = 8) (a : UInt64) :
    UInt64.ofNat (ofLE bs) = a ↔ le 8 a.toNat = bs := by
  have h1 := ofLE_lt bs
  have h2 := le_ofLE bs
  rw [h] at h1 h2
  constructor
  · rintro rfl
    rw [UInt64.toNat_ofNat', Nat.mod_eq_of_lt (by omega), h2]
  · rintro rfl
    rw [ofLE_le 8 a.toNat (by have := a.toNat_lt; omega), UInt64.ofNat_toNat]

theorem coercing_nat64 : Coercing desU64 Did.nat64 Mean.nat64 where
  sub := by
    intro t _
    cases t <;> simp [desU64, accepts, Below, Did.nat64]
    exact eq_comm
  opt := by simp [desU64, Ty.optional, Omitted, Did.nat64]
  miss := by simp [desU64, Omitted, Did.nat64]
  get := by
    intro t v a _ ht hb
    rw [Did.nat64, Below] at hb
    rcases hb with rfl | rfl
    · rw [HasTy] at ht; obtain ⟨bs, rfl, hn⟩ := ht
      simp only [desU64, Did.nat64, Coerces, Mean.nat64, Option.some.injEq, Val.fixed.injEq]
      exact nat64_iff hn a
    · simp only [HasTy] at ht

theorem pairwise_eq {c : Val → Val → Prop} (hc : ∀ x y, c x y ↔ y = x) (xs ys : List Val) :
    Spec.Candid.Pairwise c (Vals.ofList xs) (Vals.ofList ys) ↔ ys = xs := by
  induction xs generalizing ys with
  | nil => cases ys <;> simp [Vals.ofList, Spec.Candid.Pairwise]
  | cons x xs ih =>
    cases ys with
    | nil => simp [Vals.ofList, Spec.Candid.Pairwise]
    | cons y ys =>
      simp only [Vals.ofList, Spec.Candid.Pairwise, Vals.cons.injEq, List.cons.injEq]
      constructor
      · rintro ⟨_, _, ⟨rfl, rfl⟩, h1, h2⟩; exact ⟨(hc _ _).mp h1, (ih _).mp h2⟩
      · rintro ⟨h1, h2⟩; exact ⟨y, _, ⟨rfl, rfl⟩, (hc _ _).mpr h1, (ih _).mpr h2⟩

theorem ofList_inj {l m : List Val} (h : Vals.ofList l = Vals.ofList m) : l = m := by
  rw [← toList_ofList l, h, toList_ofList]

theorem map_fixed_inj {l m : Bytes}
    (h : l.map (fun b => Val.fixed [b]) = m.map (fun b => Val.fixed [b])) : l = m := by
  have := congrArg (fun l => (Vals.ofList l).bytes) h
  simp only [bytes_ofList, Option.some.injEq] at this
  exact this

theorem coercing_blob : Coercing desBlob Did.blob Mean.blob where
  sub := by
    intro t _
    cases t <;> simp only [desBlob, accepts, Below, Did.blob] <;> simp
    rename_i u _
    cases u <;> simp
    exact eq_comm
  opt := by simp [desBlob, Ty.optional, Omitted, Did.blob]
  miss := by simp [desBlob, Omitted, Did.blob]
  get := by
    intro t v a _ ht hb
    rw [Did.blob, Below] at hb
    rcases hb with ⟨u, rfl, hb⟩ | rfl
    · rw [HasTy] at ht; obtain ⟨xs, rfl, hx⟩ := ht
      have hbs : ∃ bs : Bytes, xs = bs.map (fun b => .fixed [b]) := by
        rw [Below] at hb
        rcases hb with rfl | rfl
        · exact bytes_eq xs hx
        · cases xs with
          | nil => exact ⟨[], rfl⟩
          | cons x xs => have := hx x List.mem_cons_self; simp only [HasTy] at this
      obtain ⟨bs, rfl⟩ := hbs
      simp only [desBlob, bytes_ofList, Did.blob, Coerces, Mean.blob, Mean.vec, Option.some.injEq]
      constructor
      · rintro rfl
        exact ⟨u, _, _, rfl, rfl, rfl, (pairwise_eq (fun x y => by simp only) _ _).mpr rfl⟩
      · rintro ⟨_, _, _, h1, h2, h3, h4⟩
        cases h1; cases h2; cases h3
        exact (map_fixed_inj ((pairwise_eq (fun x y => by simp only) _ _).mp h4)).symm
    · simp only [HasTy] at ht

theorem coercing_subaccount : Coercing desSubaccount Did.blob Mean.subaccount where
  sub := coercing_blob.sub
  opt := coercing_blob.opt
  miss := by simp [desSubaccount, Omitted, Did.blob]
  get := by
    intro t v a hs ht hb
    have hg := fun bs => coercing_blob.get t v bs hs ht hb
    simp only [desSubaccount, Mean.subaccount]
    rw [← hg]
    cases h : desBlob.get t v with
    | none => simp
    | some bs =>
      simp only [Option.some.injEq]
      constructor
      · intro h'
        split at h'
        · cases h'; rfl
        · cases h'
      · rintro rfl
        rw [dif_pos a.property]

theorem optional_iff {t : Ty} : t.optional = false ↔ t ≠ .null ∧ t ≠ .reserved ∧ ∀ w, t ≠ .opt w := by
  cases t <;> simp [Ty.optional]

theorem coercing_opt {A : Type} {d : Des A} {e : Ty} {f : A → Val} (h : Coercing d e f) :
    Coercing (desOpt d) (.opt e) (Mean.opt f) where
  sub := by intro t _; simp [desOpt, accepts, Below]
  opt := by simp [desOpt, Ty.optional, Omitted]
  miss := by intro a; cases a <;> simp [desOpt, Omitted, Mean.opt]
  get := by
    intro t v a hs ht _
    have key : ∀ u x, Sorted u → HasTy u x → (desSome d u x = some a ↔
        ((¬Below e u ∧ Mean.opt f a = .none) ∨
          (Below e u ∧ ∃ x', Coerces e u x x' ∧ Mean.opt f a = .some x'))) := by
      intro u x hu hx
      unfold desSome
      by_cases hb : Below e u
      · rw [if_pos ((h.sub u hu).mpr hb)]
        cases a with
        | none => simp [Mean.opt, hb]
        | some b =>
          simp only [Option.map_eq_some_iff, Option.some.injEq, exists_eq_right, Mean.opt, hb,
            h.get u x b hu hx hb]
          simp
      · rw [if_neg (fun hc => hb ((h.sub u hu).mp hc))]
        cases a <;> simp [Mean.opt, hb]
    have nothing : ∀ {t : Ty} {v : Val}, Nothing t v → (desOpt d).get t v = some none := by
      rintro t v (rfl | rfl | ⟨⟨u, rfl⟩, rfl⟩) <;> rfl
    rw [Coerces]
    by_cases hn : Nothing t v
    · rw [nothing hn]
      constructor
      · intro he; cases he; exact .inl ⟨hn, rfl⟩
      · rintro (⟨_, he⟩ | ⟨u, x, hsome, _⟩)
        · cases a with
          | none => rfl
          | some b => cases he
        · exfalso
          rcases hn with rfl | rfl | ⟨⟨w, rfl⟩, rfl⟩ <;>
            rcases hsome with ⟨h1, h2⟩ | ⟨h1, h2, h3, _⟩
          · cases h1
          · exact h1 rfl
          · cases h1
          · exact h2 rfl
          · cases h2
          · exact h3 _ rfl
    · cases t with
      | null => exact absurd (.inl rfl) hn
      | reserved => exact absurd (.inr (.inl rfl)) hn
      | opt w =>
        rw [HasTy] at ht
        rw [Sorted] at hs
        rcases ht with rfl | ⟨x, rfl, hx⟩
        · exact absurd (.inr (.inr ⟨⟨_, rfl⟩, rfl⟩)) hn
        · have : (desOpt d).get (.opt w) (.some x) = desSome d w x := rfl
          rw [this, key w x hs hx]
          constructor
          · intro hk; exact .inr ⟨w, x, .inl ⟨rfl, rfl⟩, hk⟩
          · rintro (⟨h1, _⟩ | ⟨u, y, h1 | h1, hk⟩)
            · exact absurd h1 hn
            · obtain ⟨h1, h2⟩ := h1; cases h1; cases h2; exact hk
            · exact absurd rfl (h1.2.2.1 _)
      | _ =>
        rw [desOpt_plain d rfl, key _ _ hs ht]
        constructor
        · intro hk
          exact .inr ⟨_, _, .inr ⟨(by intro h; cases h), (by intro h; cases h),
            (by intro w h; cases h), rfl, rfl⟩, hk⟩
        · rintro (⟨h1, _⟩ | ⟨u, y, h1 | h1, hk⟩)
          · exact absurd h1 hn
          · cases h1.1
          · obtain ⟨_, _, _, h1, h2⟩ := h1; subst h1; subst h2; exact hk

theorem allSome_pairwise {A : Type} {g : Val → Option A} {f : A → Val} {c : Val → Val → Prop}
    (xs : List Val) (h : ∀ x ∈ xs, ∀ a, g x = some a ↔ c x (f a)) (l : List A) :
    allSome g xs = some l ↔ Spec.Candid.Pairwise c (Vals.ofList xs) (Vals.ofList (l.map f)) := by
  induction xs generalizing l with
  | nil => cases l <;> simp [allSome, Vals.ofList, Spec.Candid.Pairwise]
  | cons x xs ih =>
    have ih := ih (fun y hy => h y (List.mem_cons_of_mem _ hy))
    have hx := h x List.mem_cons_self
    simp only [allSome, Vals.ofList, Spec.Candid.Pairwise]
    cases l with
    | nil =>
      cases hg : g x with
      | none => simp [Vals.ofList]
      | some b => simp [Vals.ofList]
    | cons a l =>
      simp only [List.map_cons, Vals.ofList, Vals.cons.injEq]
      constructor
      · intro hg
        cases hb : g x with
        | none => rw [hb] at hg; cases hg
        | some b =>
          rw [hb] at hg
          simp only [Option.map_eq_some_iff] at hg
          obtain ⟨l', h1, h2⟩ := hg
          cases h2
          exact ⟨_, _, ⟨rfl, rfl⟩, (hx _).mp hb, (ih _).mp h1⟩
      · rintro ⟨_, _, ⟨rfl, rfl⟩, h1, h2⟩
        rw [(hx _).mpr h1]
        simp only [(ih _).mpr h2, Option.map_some]

theorem coercing_vec {A : Type} {d : Des A} {e : Ty} {f : A → Val} (h : Coercing d e f) :
    Coercing (desVec d) (.vec e) (Mean.vec f) where
  sub := by
    intro t hs
    cases t <;> simp [desVec, accepts, Below]
    rename_i u
    rw [Sorted] at hs
    exact h.sub u hs
  opt := by simp [desVec, Ty.optional, Omitted]
  miss := by simp [desVec, Omitted]
  get := by
    intro t v a hs ht hb
    rw [Below] at hb
    rcases hb with ⟨u, rfl, hb⟩ | rfl
    · rw [HasTy] at ht; obtain ⟨xs, rfl, hx⟩ := ht
      rw [Sorted] at hs
      simp only [desVec, toList_ofList, Coerces, Mean.vec]
      rw [allSome_pairwise xs (fun x hm b => h.get u x b hs (hx x hm) hb)]
      constructor
      · intro hp; exact ⟨u, _, _, rfl, rfl, rfl, hp⟩
      · rintro ⟨_, _, _, h1, h2, h3, h4⟩
        cases h1; cases h2; cases h3; exact h4
    · simp only [HasTy] at ht

/-! ## Records -/

/-- An expected field is there, or may be left out. -/
def Fit (fs : List (Nat × Ty)) (l : Nat) (e : Ty) : Prop :=
  (∃ u, (l, u) ∈ fs ∧ Below e u) ∨ ((∀ f ∈ fs, f.1 ≠ l) ∧ ∃ v, Omitted e v)

/-- A field is read as `y`. -/
def Is (s : List (Nat × Ty × Val)) (l : Nat) (e : Ty) (y : Val) : Prop :=
  (∃ u x, (l, u, x) ∈ s ∧ Coerces e u x y) ∨ ((∀ f ∈ s, f.1 ≠ l) ∧ Omitted e y)

theorem belowAll_iff (L : List (Nat × Ty)) (fs : List (Nat × Ty)) :
    BelowAll (Fields.ofList L) fs ↔ ∀ f ∈ L, Fit fs f.1 f.2 := by
  induction L with
  | nil => simp [Fields.ofList, BelowAll]
  | cons f L ih =>
    obtain ⟨l, e⟩ := f
    simp only [Fields.ofList, BelowAll, ih, List.forall_mem_cons]
    exact Iff.rfl

/-- Fields that are read as these values. -/
def AllAre (s : List (Nat × Ty × Val)) : List (Nat × Ty) → List Val → Prop
  | [], ys => ys = []
  | (l, e) :: L, ys => ∃ y zs, ys = y :: zs ∧ Is s l e y ∧ AllAre s L zs

theorem coercesAll_iff (L : List (Nat × Ty)) (s : List (Nat × Ty × Val)) (ys : List Val) :
    CoercesAll (Fields.ofList L) s (Vals.ofList ys) ↔ AllAre s L ys := by
  induction L generalizing ys with
  | nil => cases ys <;> simp [Fields.ofList, CoercesAll, AllAre, Vals.ofList]
  | cons f L ih =>
    obtain ⟨l, e⟩ := f
    cases ys with
    | nil => simp [Fields.ofList, CoercesAll, AllAre, Vals.ofList]
    | cons y ys =>
      simp only [Fields.ofList, CoercesAll, AllAre, Vals.ofList, Vals.cons.injEq, List.cons.injEq]
      constructor
      · rintro ⟨_, _, ⟨rfl, rfl⟩, h1, h2⟩; exact ⟨_, _, ⟨rfl, rfl⟩, h2, (ih _).mp h1⟩
      · rintro ⟨_, _, ⟨rfl, rfl⟩, h1, h2⟩; exact ⟨_, _, ⟨rfl, rfl⟩, (ih _).mpr h2, h1⟩

/-- What an expected field is checked against. -/
def fitIn (gs : Fields) (l : Nat) (e : Ty) : Bool :=
  match gs.find l with
  | some u => accepts e u
  | none => e.optional

theorem acceptsRecord_fit (L : List (Nat × Ty)) (gs : Fields) :
    acceptsRecord (Fields.ofList L) gs = true ↔ ∀ f ∈ L, fitIn gs f.1 f.2 = true :=
  acceptsRecord_iff L gs

def listed : Fields → List (Nat × Ty)
  | .nil => []
  | .cons l t fs => (l, t) :: listed fs

theorem listed_ofList (l : List (Nat × Ty)) : listed (Fields.ofList l) = l := by
  induction l with
  | nil => rfl
  | cons f l ih => obtain ⟨k, t⟩ := f; simp only [Fields.ofList, listed, ih]

theorem fielded_inj {s s' : List (Nat × Ty × Val)}
    (h1 : s.map (fun f => (f.1, f.2.1)) = s'.map (fun f => (f.1, f.2.1)))
    (h2 : s.map (fun f => f.2.2) = s'.map (fun f => f.2.2)) : s = s' := by
  induction s generalizing s' with
  | nil => cases s' with
    | nil => rfl
    | cons g s' => cases h1
  | cons f s ih => cases s' with
    | nil => cases h1
    | cons g s' =>
      simp only [List.map_cons, List.cons.injEq, Prod.mk.injEq] at h1 h2
      obtain ⟨k, t, x⟩ := f
      obtain ⟨k', t', x'⟩ := g
      obtain ⟨⟨rfl, rfl⟩, h1⟩ := h1
      obtain ⟨rfl, h2⟩ := h2
      rw [ih h1 h2]

theorem fit_iff {A : Type} {d : Des A} {e : Ty} {f : A → Val} (h : Coercing d e f)
    {fs : List (Nat × Ty)} (hp : fs.Pairwise (fun a b => a.1 < b.1))
    (hs : ∀ g ∈ fs, Sorted g.2) (l : Nat) :
    fitIn (Fields.ofList fs) l d.ty = true ↔ Fit fs l e := by
  unfold Fit fitIn
  by_cases hx : ∃ u, (l, u) ∈ fs
  · obtain ⟨u, hu⟩ := hx
    rw [find_of_mem hp hu]
    simp only
    rw [h.sub u (hs _ hu)]
    constructor
    · intro hb; exact .inl ⟨u, hu, hb⟩
    · rintro (⟨u', hu', hb⟩ | ⟨hn, _⟩)
      · have h1 := find_of_mem hp hu'
        rw [find_of_mem hp hu] at h1
        cases h1; exact hb
      · exact absurd rfl (hn _ hu)
  · have hn : ∀ f ∈ fs, f.1 ≠ l := fun f hf he => hx ⟨f.2, by rw [← he]; exact hf⟩
    have : (Fields.ofList fs).find l = none := by
      clear hp hs hx
      induction fs with
      | nil => rfl
      | cons g fs ih =>
        obtain ⟨k, u⟩ := g
        simp only [Fields.ofList, Fields.find]
        rw [if_neg (fun e => hn _ List.mem_cons_self e.symm)]
        exact ih (fun f hf => hn f (List.mem_cons_of_mem _ hf))
    rw [this]
    simp only
    rw [h.opt]
    constructor
    · intro ho; exact .inr ⟨hn, ho⟩
    · rintro (⟨u, hu, _⟩ | ⟨_, ho⟩)
      · exact absurd ⟨u, hu⟩ hx
      · exact ho

theorem is_iff {A : Type} {d : Des A} {e : Ty} {f : A → Val} (h : Coercing d e f)
    {s : List (Nat × Ty × Val)} {t : Ty} {v : Val} (hr : Record s t v)
    (hs : ∀ g ∈ s, Sorted g.2.1) (ht : ∀ g ∈ s, HasTy g.2.1 g.2.2) {l : Nat}
    (hf : Fit (s.map (fun g => (g.1, g.2.1))) l e) (a : A) :
    fieldAt d l t v = some a ↔ Is s l e (f a) := by
  obtain ⟨hp, rfl, rfl⟩ := hr
  unfold Is
  by_cases hx : ∃ u x, (l, u, x) ∈ s
  · obtain ⟨u, x, hm⟩ := hx
    have hb : Below e u := by
      rcases hf with ⟨u', hm', hb⟩ | ⟨hn, _⟩
      · obtain ⟨g, hg, he⟩ := List.mem_map.mp hm'
        obtain ⟨k, w, y⟩ := g
        cases he
        have h1 := (find_types hp hm).1
        rw [(find_types hp hg).1] at h1
        cases h1; exact hb
      · exact absurd rfl (hn _ (List.mem_map.mpr ⟨_, hm, rfl⟩))
    simp only [fieldAt, (find_types hp hm).2]
    rw [h.get u x a (hs _ hm) (ht _ hm) hb]
    constructor
    · intro hc; exact .inl ⟨u, x, hm, hc⟩
    · rintro (⟨u', x', hm', hc⟩ | ⟨hn, _⟩)
      · have h1 := (find_types hp hm').2
        rw [(find_types hp hm).2] at h1
        cases h1; exact hc
      · exact absurd rfl (hn _ hm)
  · have hn : ∀ g ∈ s, g.1 ≠ l := fun g hg he => hx ⟨g.2.1, g.2.2, by rw [← he]; exact hg⟩
    simp only [fieldAt, (find_lacks hn).2]
    rw [h.miss]
    constructor
    · intro ho; exact .inr ⟨hn, ho⟩
    · rintro (⟨u, x, hm, _⟩ | ⟨_, ho⟩)
      · exact absurd ⟨u, x, hm⟩ hx
      · exact ho

/-- A record read field by field. -/
theorem coercing_record {A : Type} {d : Des A} {L E : List (Nat × Ty)} {F : A → List Val}
    (hty : d.ty = .record (Fields.ofList L)) (hm : d.missing = none)
    (hsub : ∀ fs : List (Nat × Ty), fs.Pairwise (fun a b => a.1 < b.1) → (∀ g ∈ fs, Sorted g.2) →
      ((∀ f ∈ L, fitIn (Fields.ofList fs) f.1 f.2 = true) ↔ ∀ f ∈ E, Fit fs f.1 f.2))
    (hget : ∀ (s : List (Nat × Ty × Val)) t v a, Record s t v → (∀ g ∈ s, Sorted g.2.1) →
      (∀ g ∈ s, HasTy g.2.1 g.2.2) → (∀ f ∈ E, Fit (s.map (fun g => (g.1, g.2.1))) f.1 f.2) →
      (d.get t v = some a ↔ AllAre s E (F a))) :
    Coercing d (.record (Fields.ofList E)) (fun a => Mean.record (F a)) where
  sub := by
    intro t hs
    rw [hty]
    cases t with
    | record gs =>
      obtain ⟨fs, rfl⟩ := ofList_surj gs
      simp only [Sorted] at hs
      have hp : fs.Pairwise (fun a b => a.1 < b.1) := by
        have := hs.1
        rw [labels_ofList, List.pairwise_map] at this
        exact this
      simp only [accepts, Below]
      rw [acceptsRecord_fit, hsub fs hp (sortedAll_mem _ hs.2)]
      constructor
      · intro h; exact .inl ⟨fs, rfl, (belowAll_iff _ _).mpr h⟩
      · rintro (⟨fs', he, h⟩ | h)
        · have : fs = fs' := by
            have := congrArg (fun t => match t with | Ty.record f => listed f | _ => []) he
            simpa only [listed_ofList] using this
          subst this
          exact (belowAll_iff _ _).mp h
        · cases h
    | _ => simp [accepts, Below]
  opt := by rw [hty]; simp [Ty.optional, Omitted]
  miss := by intro a; rw [hm]; simp [Omitted]
  get := by
    intro t v a hs ht hb
    rw [Below] at hb
    rcases hb with ⟨fs, rfl, hb⟩ | rfl
    · rw [HasTy] at ht; obtain ⟨vs, rfl, hv⟩ := ht
      obtain ⟨s, h1, h2, h3⟩ := fielded_of _ vs hv
      have hr : Record s (.record (Fields.ofList fs)) (.record vs) :=
        record_of_fielded hs ⟨by rw [h1], by rw [h2]⟩
      have hfs : fs = s.map (fun g => (g.1, g.2.1)) := by
        have := congrArg listed h1
        simpa only [listed_ofList] using this
      have hs' : ∀ g ∈ s, Sorted g.2.1 := by
        simp only [Sorted] at hs
        intro g hg
        rw [h1] at hs
        exact sortedAll_mem _ hs.2 (g.1, g.2.1) (List.mem_map.mpr ⟨g, hg, rfl⟩)
      rw [hget s _ _ a hr hs' h3 (by rw [← hfs]; exact (belowAll_iff _ _).mp hb), Coerces]
      constructor
      · intro h; exact ⟨s, _, ⟨hr.2.1, hr.2.2⟩, rfl, (coercesAll_iff _ _ _).mpr h⟩
      · rintro ⟨s', xs', ⟨h4, h5⟩, h6, h7⟩
        have : s = s' := by
          have e1 := hr.2.1.symm.trans h4
          have e2 := hr.2.2.symm.trans h5
          simp only [Ty.record.injEq] at e1
          simp only [Val.record.injEq] at e2
          have e1 := congrArg listed e1
          simp only [listed_ofList] at e1
          have e2 := ofList_inj e2
          exact fielded_inj e1 e2
        subst this
        cases h6
        exact (coercesAll_iff _ _ _).mp h7
    · simp only [HasTy] at ht

theorem allAre_cons {s : List (Nat × Ty × Val)} {l : Nat} {e : Ty} {L : List (Nat × Ty)} {y : Val}
    {ys : List Val} : AllAre s ((l, e) :: L) (y :: ys) ↔ Is s l e y ∧ AllAre s L ys := by
  simp only [AllAre, List.cons.injEq]
  constructor
  · rintro ⟨_, _, ⟨rfl, rfl⟩, h⟩; exact h
  · intro h; exact ⟨_, _, ⟨rfl, rfl⟩, h⟩

theorem allAre_nil {s : List (Nat × Ty × Val)} : AllAre s [] [] ↔ True := by simp [AllAre]

/-! ## Variants -/

theorem find_isSome_iff (L : List (Nat × Ty)) (l : Nat) :
    ((Fields.ofList L).find l).isSome = true ↔ l ∈ L.map Prod.fst := by
  induction L with
  | nil => simp [Fields.ofList, Fields.find]
  | cons f L ih =>
    obtain ⟨k, t⟩ := f
    simp only [Fields.ofList, Fields.find, List.map_cons, List.mem_cons]
    by_cases h : l = k
    · simp [h]
    · simp [h, ih]

theorem mem_of_find {L : List (Nat × Ty)} {l : Nat} {u : Ty}
    (h : (Fields.ofList L).find l = some u) : (l, u) ∈ L := by
  induction L with
  | nil => cases h
  | cons f L ih =>
    obtain ⟨k, t⟩ := f
    simp only [Fields.ofList, Fields.find] at h
    split at h
    · rename_i he; cases h; rw [he]; exact .head _
    · exact .tail _ (ih h)

theorem hasCase_some (cs : List (Nat × Ty)) (i : Nat) {x : Val} (h : HasCase (Fields.ofList cs) i x) :
    ∃ c, cs[i]? = some c := by
  induction cs generalizing i with
  | nil => simp only [Fields.ofList, HasCase] at h
  | cons c cs ih =>
    simp only [Fields.ofList, HasCase] at h
    rcases h with ⟨rfl, _⟩ | ⟨j, rfl, h⟩
    · exact ⟨c, rfl⟩
    · exact ih j h

/-- A variant read by its case. -/
theorem coercing_variant {A : Type} {d : Des A} {L E : List (Nat × Ty)} {F : A → Val}
    (hty : d.ty = .variant (Fields.ofList L)) (hm : d.missing = none)
    (hsub : ∀ l u, Sorted u → ((l ∈ L.map Prod.fst ∧ ∀ f ∈ L, f.1 = l → accepts f.2 u = true) ↔
      BelowCase (Fields.ofList E) l u))
    (hget : ∀ t v l u x a, theCase t v = some (l, u, x) → Sorted u → HasTy u x →
      BelowCase (Fields.ofList E) l u →
      (d.get t v = some a ↔ ∃ j y, F a = .variant j y ∧ CoercesCase (Fields.ofList E) l u x j y)) :
    Coercing d (.variant (Fields.ofList E)) F where
  sub := by
    intro t hs
    rw [hty]
    cases t with
    | variant gs =>
      obtain ⟨cs, rfl⟩ := ofList_surj gs
      simp only [Sorted] at hs
      have hp : cs.Pairwise (fun a b => a.1 < b.1) := by
        have := hs.1
        rw [labels_ofList, List.pairwise_map] at this
        exact this
      simp only [accepts, Below, Bool.and_eq_true]
      rw [within_iff, acceptsCases_iff]
      have key : ∀ c ∈ cs, (((Fields.ofList L).find c.1).isSome = true ∧
          ∀ f ∈ L, f.1 = c.1 → accepts f.2 c.2 = true) ↔ BelowCase (Fields.ofList E) c.1 c.2 := by
        intro c hc
        rw [find_isSome_iff]
        exact hsub c.1 c.2 (sortedAll_mem _ hs.2 c hc)
      constructor
      · rintro ⟨h1, h2⟩
        refine .inl ⟨cs, rfl, fun c hc => (key c hc).mp ⟨h1 c hc, fun f hf he => ?_⟩⟩
        exact h2 f hf c.2 (by rw [he]; exact find_of_mem hp hc)
      · rintro (⟨cs', he, h⟩ | h)
        · have : cs = cs' := by
            have := congrArg (fun t => match t with | Ty.variant f => listed f | _ => []) he
            simpa only [listed_ofList] using this
          subst this
          refine ⟨fun c hc => ((key c hc).mpr (h c hc)).1, fun f hf u hu => ?_⟩
          have hc := mem_of_find hu
          exact ((key _ hc).mpr (h _ hc)).2 f hf rfl
        · cases h
    | _ => simp [accepts, Below]
  opt := by rw [hty]; simp [Ty.optional, Omitted]
  miss := by intro a; rw [hm]; simp [Omitted]
  get := by
    intro t v a hs ht hb
    rw [Below] at hb
    rcases hb with ⟨cs, rfl, hb⟩ | rfl
    · rw [HasTy] at ht; obtain ⟨i, x, rfl, hx⟩ := ht
      obtain ⟨⟨l, u⟩, hi⟩ := hasCase_some cs i hx
      have hc : theCase (.variant (Fields.ofList cs)) (.variant i x) = some (l, u, x) := by
        simp only [theCase, get?_ofList, hi, Option.map_some]
      simp only [Sorted] at hs
      have hmem := List.mem_of_getElem? hi
      rw [hget _ _ l u x a hc (sortedAll_mem _ hs.2 _ hmem) (hasCase_typed cs i hi hx) (hb _ hmem),
        Coerces]
      constructor
      · rintro ⟨j, y, h1, h2⟩; exact ⟨cs, i, l, u, x, j, y, rfl, rfl, hi, h1, h2⟩
      · rintro ⟨cs', i', l', u', x', j, y, h1, h2, h3, h4, h5⟩
        have : cs = cs' := by
          have := congrArg (fun t => match t with | Ty.variant f => listed f | _ => []) h1
          simpa only [listed_ofList] using this
        subst this
        cases h2
        rw [hi] at h3
        cases h3
        exact ⟨j, y, h4, h5⟩
    · simp only [HasTy] at ht

end CyclesLedger.Candid
