import Verif.Model.CandidReply
import Verif.Spec.CandidReply
import Verif.Proof.CandidWrite
/-! # Structs and enums as Candid: what they are written as, and that it says one thing only -/
namespace CyclesLedger.Candid
open Spec.Candid

/-! ## Order -/

theorem mem_insertField {B : Type} (a : Nat × B) (l : List (Nat × B)) (f : Nat × B) :
    f ∈ insertField a l ↔ f = a ∨ f ∈ l := by
  induction l with
  | nil => simp [insertField]
  | cons b l ih =>
    simp only [insertField]
    split
    · simp
    · simp only [List.mem_cons, ih]
      constructor
      · rintro (h | h | h)
        · exact .inr (.inl h)
        · exact .inl h
        · exact .inr (.inr h)
      · rintro (h | h | h)
        · exact .inr (.inl h)
        · exact .inl h
        · exact .inr (.inr h)

theorem mem_sortFields {B : Type} (l : List (Nat × B)) (f : Nat × B) :
    f ∈ sortFields l ↔ f ∈ l := by
  induction l with
  | nil => simp [sortFields]
  | cons a l ih => simp only [sortFields, mem_insertField, ih, List.mem_cons]

theorem pairwise_insertField {B : Type} (a : Nat × B) (l : List (Nat × B))
    (hl : l.Pairwise (fun a b => a.1 < b.1)) (ha : ∀ b ∈ l, b.1 ≠ a.1) :
    (insertField a l).Pairwise (fun a b => a.1 < b.1) := by
  induction l with
  | nil => simp [insertField]
  | cons b l ih =>
    obtain ⟨hb, hl'⟩ := List.pairwise_cons.mp hl
    simp only [insertField]
    split
    · rename_i h
      refine List.pairwise_cons.mpr ⟨?_, hl⟩
      intro c hc
      rcases List.mem_cons.mp hc with rfl | hc
      · exact h
      · exact Nat.lt_trans h (hb c hc)
    · rename_i h
      refine List.pairwise_cons.mpr ⟨?_, ih hl' (fun c hc => ha c (List.mem_cons_of_mem _ hc))⟩
      intro c hc
      rcases (mem_insertField a l c).mp hc with rfl | hc
      · have := ha b List.mem_cons_self
        omega
      · exact hb c hc

theorem pairwise_sortFields {B : Type} (l : List (Nat × B)) (hn : (l.map Prod.fst).Nodup) :
    (sortFields l).Pairwise (fun a b => a.1 < b.1) := by
  induction l with
  | nil => exact List.Pairwise.nil
  | cons a l ih =>
    simp only [List.map_cons, List.nodup_cons] at hn
    refine pairwise_insertField a _ (ih hn.2) ?_
    intro b hb he
    exact hn.1 (List.mem_map.mpr ⟨b, (mem_sortFields l b).mp hb, he⟩)

theorem insertField_map {B C : Type} (g : B → C) (a : Nat × B) (l : List (Nat × B)) :
    insertField (a.1, g a.2) (l.map (fun f => (f.1, g f.2))) =
      (insertField a l).map (fun f => (f.1, g f.2)) := by
  induction l with
  | nil => rfl
  | cons b l ih =>
    simp only [List.map_cons, insertField]
    split
    · rfl
    · rw [ih]; rfl

theorem sortFields_map {B C : Type} (g : B → C) (l : List (Nat × B)) :
    sortFields (l.map (fun f => (f.1, g f.2))) = (sortFields l).map (fun f => (f.1, g f.2)) := by
  induction l with
  | nil => rfl
  | cons a l ih => simp only [List.map_cons, sortFields, ih, insertField_map]

/-! ## What is written -/

/-- A type and values in it that say what they should, if `P`. -/
structure Good {A : Type} (w : Way A) (ty : Ty) (put : A → Val) (P : A → Prop) : Prop where
  wf : Wf ty
  typed : ∀ a, HasTy ty (put a)
  ok : ∀ a, P a → w a ty (put a)

theorem Good.fits {A : Type} {w : Way A} {ty : Ty} {put : A → Val} {P : A → Prop}
    (g : Good w ty put P) (a : A) (h : P a) : Fits w ty := ⟨a, put a, g.ok a h⟩

theorem map_fst_label {B : Type} (l : List (String × B)) :
    (l.map (fun f => (label f.1, f.2))).map Prod.fst = l.map (fun f => nameHash f.1) := by
  rw [List.map_map]
  refine List.map_congr_left ?_
  intro f _
  exact label_eq f.1

theorem rec_spec (l : List (String × Ty × Val)) (hn : (l.map (fun f => nameHash f.1)).Nodup) :
    ∃ s, Record s (recTy (l.map (fun f => (f.1, f.2.1)))) (recVal l) ∧
      ∀ f, f ∈ s ↔ ∃ g ∈ l, f = (nameHash g.1, g.2) := by
  refine ⟨sortFields (l.map (fun f => (label f.1, f.2))), ⟨?_, ?_, rfl⟩, ?_⟩
  · refine pairwise_sortFields _ ?_
    rw [map_fst_label]; exact hn
  · rw [recTy]
    have : List.map (fun f => (label f.1, f.2)) (List.map (fun f : String × Ty × Val => (f.1, f.2.1)) l)
        = (l.map (fun f => (label f.1, f.2))).map (fun f => (f.1, f.2.1)) := by
      simp only [List.map_map]; rfl
    rw [this, sortFields_map (fun f : Ty × Val => f.1)]
  · intro f
    rw [mem_sortFields, List.mem_map]
    constructor
    · rintro ⟨g, hg, rfl⟩; exact ⟨g, hg, by rw [label_eq]⟩
    · rintro ⟨g, hg, rfl⟩; exact ⟨g, hg, by rw [label_eq]⟩

theorem rec_typed (l : List (String × Ty × Val)) (hn : (l.map (fun f => nameHash f.1)).Nodup)
    (ht : ∀ f ∈ l, HasTy f.2.1 f.2.2) :
    HasTy (recTy (l.map (fun f => (f.1, f.2.1)))) (recVal l) := by
  obtain ⟨s, ⟨_, h2, h3⟩, h4⟩ := rec_spec l hn
  rw [h2, h3, HasTy]
  refine ⟨_, rfl, hasTys_ofList s ?_⟩
  intro f hf
  obtain ⟨g, hg, rfl⟩ := (h4 f).mp hf
  exact ht g hg

theorem sorted_labels (l : List (String × Ty)) (hn : (l.map (fun f => nameHash f.1)).Nodup) :
    (Fields.ofList (sortFields (l.map (fun f => (label f.1, f.2))))).labels.Pairwise (· < ·) := by
  rw [labels_ofList, List.pairwise_map]
  refine pairwise_sortFields _ ?_
  rw [map_fst_label]; exact hn

theorem sorted_wf (l : List (String × Ty)) (hw : ∀ f ∈ l, Wf f.2) :
    WfAll (Fields.ofList (sortFields (l.map (fun f => (label f.1, f.2))))) := by
  refine wfAll_ofList _ ?_
  intro f hf
  rw [mem_sortFields, List.mem_map] at hf
  obtain ⟨g, hg, rfl⟩ := hf
  exact hw g hg

theorem recTy_wf (l : List (String × Ty)) (hn : (l.map (fun f => nameHash f.1)).Nodup)
    (hw : ∀ f ∈ l, Wf f.2) : Wf (recTy l) := by
  rw [recTy, Wf]
  exact ⟨sorted_labels l hn, sorted_wf l hw⟩

theorem enumTy_wf (l : List (String × Ty)) (hn : (l.map (fun f => nameHash f.1)).Nodup)
    (hw : ∀ f ∈ l, Wf f.2) : Wf (enumTy l) := by
  rw [enumTy, Wf]
  exact ⟨sorted_labels l hn, sorted_wf l hw⟩

/-- The position found is that of the case. -/
theorem findIdx_case (cs : List (Nat × Ty)) (hs : cs.Pairwise (fun a b => a.1 < b.1)) {l : Nat}
    {u : Ty} (hm : (l, u) ∈ cs) : cs[cs.findIdx (fun c => c.1 == l)]? = some (l, u) := by
  induction cs with
  | nil => cases hm
  | cons c cs ih =>
    obtain ⟨hc, hs'⟩ := List.pairwise_cons.mp hs
    rw [List.findIdx_cons]
    by_cases he : c.1 = l
    · rcases List.mem_cons.mp hm with h | h
      · simp [← h]
      · have := hc _ h
        simp only at this
        omega
    · have hb : (c.1 == l) = false := by simpa using he
      rw [hb]
      rcases List.mem_cons.mp hm with h | h
      · exact absurd (by rw [← h]) he
      · simp only [cond_false, List.getElem?_cons_succ]
        exact ih hs' h

theorem enum_case {known : List (String × (Ty → Prop))} {l : List (String × Ty)}
    (hn : (l.map (fun f => nameHash f.1)).Nodup)
    (hk : ∀ c ∈ l, ∃ k ∈ known, k.1 = c.1 ∧ k.2 c.2) {name : String} {u : Ty}
    (hm : (name, u) ∈ l) (x : Val) : Case known name u x (enumTy l) (enumVal l name x) := by
  have hs : (sortFields (l.map (fun f => (label f.1, f.2)))).Pairwise (fun a b => a.1 < b.1) := by
    refine pairwise_sortFields _ ?_
    rw [map_fst_label]; exact hn
  refine ⟨_, _, rfl, hs, ?_, ?_, rfl⟩
  · intro c hc
    rw [mem_sortFields, List.mem_map] at hc
    obtain ⟨g, hg, rfl⟩ := hc
    obtain ⟨k, hk1, hk2, hk3⟩ := hk g hg
    exact ⟨k, hk1, by rw [hk2, label_eq], hk3⟩
  · rw [← label_eq]
    refine findIdx_case _ hs ?_
    rw [mem_sortFields, List.mem_map]
    exact ⟨_, hm, rfl⟩

theorem enum_typed {l : List (String × Ty)} (hn : (l.map (fun f => nameHash f.1)).Nodup)
    {name : String} {u : Ty} (hm : (name, u) ∈ l) {x : Val} (hx : HasTy u x) :
    HasTy (enumTy l) (enumVal l name x) := by
  obtain ⟨cs, i, h1, _, _, h2, h3⟩ := enum_case (known := l.map (fun c => (c.1, fun _ => True))) hn
    (fun c hc => ⟨_, List.mem_map.mpr ⟨c, hc, rfl⟩, rfl, trivial⟩) hm x
  rw [h1, h3, HasTy]
  exact ⟨_, _, rfl, hasCase_of cs i h2 hx⟩

theorem good_enum {A : Type} {known : List (String × (Ty → Prop))}
    {says : A → String × (Ty → Val → Prop)} {l : List (String × Ty)} {put : A → Val}
    {P : A → Prop} (hn : (l.map (fun f => nameHash f.1)).Nodup)
    (hk : ∀ c ∈ l, Wf c.2 ∧ ∃ k ∈ known, k.1 = c.1 ∧ k.2 c.2)
    (hp : ∀ a, ∃ u x, ((says a).1, u) ∈ l ∧ put a = enumVal l (says a).1 x ∧ HasTy u x ∧
      (P a → (says a).2 u x)) : Good (wVariant known says) (enumTy l) put P := by
  refine ⟨enumTy_wf l hn (fun c hc => (hk c hc).1), ?_, ?_⟩
  · intro a
    obtain ⟨u, x, h1, h2, h3, _⟩ := hp a
    rw [h2]
    exact enum_typed hn h1 h3
  · intro a ha
    obtain ⟨u, x, h1, h2, _, h4⟩ := hp a
    rw [h2]
    exact ⟨u, x, enum_case hn (fun c hc => (hk c hc).2) h1 x, h4 ha⟩

theorem typed_null : HasTy .null .null := by rw [HasTy]
theorem wf_null : Wf .null := by simp only [Wf]
theorem bare_null : bare .null .null := ⟨rfl, rfl⟩

theorem good_nat : Good wNat .nat .nat (fun _ => True) :=
  ⟨by simp only [Wf], fun a => by simp only [HasTy]; exact ⟨a, rfl⟩, fun _ _ => ⟨rfl, rfl⟩⟩

theorem toLE_eq (k n : Nat) : toLE k n = le k n := by
  induction k generalizing n with
  | zero => rfl
  | succ k ih => simp only [toLE, le, ih]

theorem good_time : Good wTime (.fixed .nat64) putTime (fun n => n < 2 ^ 64) := by
  refine ⟨by simp only [Wf], fun a => ?_, fun a ha => ?_⟩
  · simp only [HasTy, putTime]
    exact ⟨_, rfl, by rw [toLE_eq]; exact le_length 8 a⟩
  · have : (UInt64.ofNat a).toNat = a := by
      rw [UInt64.toNat_ofNat']
      exact Nat.mod_eq_of_lt ha
    exact ⟨UInt64.ofNat a, this, rfl, by rw [putTime, toLE_eq, this]⟩

theorem good_text : Good wText .text .text (fun _ => True) :=
  ⟨by simp only [Wf], fun a => by simp only [HasTy]; exact ⟨a, rfl⟩, fun _ _ => ⟨rfl, rfl⟩⟩

theorem good_principal : Good wPrincipal .principal putPrincipal (fun _ => True) :=
  ⟨by simp only [Wf], fun a => by simp only [HasTy, putPrincipal]; exact ⟨_, rfl, a.le⟩,
    fun _ _ => ⟨rfl, rfl⟩⟩

theorem good_opt {A : Type} {w : Way A} {ty : Ty} {put : A → Val} {P : A → Prop}
    (g : Good w ty put P) : Good (wOpt w) (.opt ty) (putOpt put) (fun o => ∀ a, o = some a → P a) := by
  refine ⟨by simp only [Wf]; exact g.wf, ?_, ?_⟩
  · intro o
    rw [HasTy]
    cases o with
    | none => exact .inl rfl
    | some a => exact .inr ⟨_, rfl, g.typed a⟩
  · intro o ho
    cases o with
    | none => exact .inl ⟨rfl, .inr (.inr ⟨⟨_, rfl⟩, rfl⟩)⟩
    | some a => exact .inr (.inl ⟨a, _, _, rfl, rfl, rfl, g.ok a (ho a rfl)⟩)

theorem each_put {A : Type} {w : Way A} {t : Ty} {put : A → Val} :
    ∀ l : List A, (∀ a ∈ l, w a t (put a)) → Each w t l (l.map put)
  | [], _ => by simp only [Each, List.map_nil]
  | a :: l, h => by
    simp only [Each, List.map_cons]
    exact ⟨_, _, rfl, h a List.mem_cons_self, each_put l (fun b hb => h b (List.mem_cons_of_mem _ hb))⟩

theorem good_vec {A : Type} {w : Way A} {ty : Ty} {put : A → Val} {P : A → Prop}
    (g : Good w ty put P) (hf : Fits w ty) :
    Good (wVec w) (.vec ty) (putVec put) (fun l => ∀ a ∈ l, P a) := by
  refine ⟨by simp only [Wf]; exact g.wf, ?_, ?_⟩
  · intro l
    rw [HasTy]
    refine ⟨_, rfl, ?_⟩
    intro x hx
    obtain ⟨a, _, rfl⟩ := List.mem_map.mp hx
    exact g.typed a
  · intro l hl
    exact ⟨ty, _, rfl, rfl, hf, each_put l (fun a ha => g.ok a (hl a ha))⟩

theorem good_one {A : Type} {w : Way A} {ty : Ty} {put : A → Val} {P : A → Prop}
    (g : Good w ty put P) (name : String) :
    Good (wOne name w) (recTy [(name, ty)]) (fun a => recVal [(name, ty, put a)]) P := by
  have hn : ∀ {B : Type} (b : B), ([(name, b)].map (fun f => nameHash f.1)).Nodup := by
    intro B b; simp
  refine ⟨recTy_wf _ (hn _) ?_, ?_, ?_⟩
  · intro f hf
    rw [List.mem_singleton] at hf; subst hf; exact g.wf
  · intro a
    refine rec_typed [(name, ty, put a)] (hn _) ?_
    intro f hf
    rw [List.mem_singleton] at hf; subst hf; exact g.typed a
  · intro a ha
    obtain ⟨s, h1, h2⟩ := rec_spec [(name, ty, put a)] (hn _)
    exact ⟨s, h1, _, _, (h2 _).mpr ⟨_, List.mem_singleton.mpr rfl, rfl⟩, g.ok a ha⟩

/-! ## That it says one thing only -/

/-- A typed value stands for one thing only. -/
def Det {A : Type} (w : Way A) : Prop := ∀ a b t v, w a t v → w b t v → a = b

theorem det_of_reads {A : Type} {d : Des A} {w : Way A} (h : Reads d w) : Det w := by
  intro a b t v ha hb
  have h1 := (h _ _ _ ha).2
  rw [(h _ _ _ hb).2] at h1
  exact (Option.some.inj h1).symm

theorem fields_inj : ∀ {l l' : List (Nat × Ty)}, Fields.ofList l = Fields.ofList l' → l = l'
  | [], [], _ => rfl
  | [], _ :: _, h => by simp only [Fields.ofList] at h; cases h
  | _ :: _, [], h => by simp only [Fields.ofList] at h; cases h
  | (a, t) :: l, (b, u) :: l', h => by
    simp only [Fields.ofList, Fields.cons.injEq] at h
    obtain ⟨rfl, rfl, h⟩ := h
    rw [fields_inj h]

theorem vals_inj {l l' : List Val} (h : Vals.ofList l = Vals.ofList l') : l = l' := by
  rw [← toList_ofList l, h, toList_ofList]

theorem triples_inj : ∀ {s s' : List (Nat × Ty × Val)},
    s.map (fun f => (f.1, f.2.1)) = s'.map (fun f => (f.1, f.2.1)) →
    s.map (fun f => f.2.2) = s'.map (fun f => f.2.2) → s = s'
  | [], [], _, _ => rfl
  | [], _ :: _, h, _ => by cases h
  | _ :: _, [], h, _ => by cases h
  | (a, t, v) :: s, (b, u, x) :: s', h, h' => by
    simp only [List.map_cons, List.cons.injEq, Prod.mk.injEq] at h h'
    obtain ⟨⟨rfl, rfl⟩, h⟩ := h
    obtain ⟨rfl, h'⟩ := h'
    rw [triples_inj h h']

theorem record_unique {s s' : List (Nat × Ty × Val)} {t : Ty} {v : Val} (h : Record s t v)
    (h' : Record s' t v) : s = s' := by
  obtain ⟨_, h1, h2⟩ := h
  obtain ⟨_, h1', h2'⟩ := h'
  rw [h1] at h1'
  rw [h2] at h2'
  exact triples_inj (fields_inj (Ty.record.inj h1')) (vals_inj (Val.record.inj h2'))

theorem entry_unique {s : List (Nat × Ty × Val)} (hs : s.Pairwise (fun a b => a.1 < b.1))
    {l : Nat} {p q : Ty × Val} (hp : (l, p) ∈ s) (hq : (l, q) ∈ s) : p = q := by
  induction s with
  | nil => cases hp
  | cons c s ih =>
    obtain ⟨hc, hs'⟩ := List.pairwise_cons.mp hs
    rcases List.mem_cons.mp hp with h | h <;> rcases List.mem_cons.mp hq with h' | h'
    · rw [← h, Prod.mk.injEq] at h'; exact h'.2.symm
    · have := hc _ h'; rw [← h] at this; simp at this
    · have := hc _ h; rw [← h'] at this; simp at this
    · exact ih hs' h h'

theorem det_has {A : Type} {w : Way A} (hd : Det w) {s s' : List (Nat × Ty × Val)} {t : Ty}
    {v : Val} (hr : Record s t v) (hr' : Record s' t v) {name : String} {a b : A}
    (ha : Has w s name a) (hb : Has w s' name b) : a = b := by
  cases record_unique hr hr'
  obtain ⟨u, x, hm, hw⟩ := ha
  obtain ⟨u', x', hm', hw'⟩ := hb
  have := entry_unique hr.1 hm hm'
  rw [Prod.mk.injEq] at this
  obtain ⟨rfl, rfl⟩ := this
  exact hd _ _ _ _ hw hw'

theorem det_opt {A : Type} {w : Way A} (hd : Det w) (hp : Plain w) : Det (wOpt w) := by
  have key : ∀ {t : Ty} {v : Val} {x : A}, (t = .null ∨ t = .reserved ∨ (∃ u, t = .opt u) ∧ v = .none) →
      wOpt w (some x) t v → False := by
    rintro t v x h (⟨h', _⟩ | ⟨y, u, z, _, rfl, rfl, _⟩ | ⟨y, _, hw⟩)
    · cases h'
    · rcases h with h | h | ⟨_, h⟩ <;> cases h
    · have := hp _ _ _ hw
      rcases h with rfl | rfl | ⟨⟨u, rfl⟩, _⟩ <;> cases this
  intro a b t v ha hb
  cases a with
  | none =>
    cases b with
    | none => rfl
    | some y =>
      rcases ha with ⟨_, h⟩ | ⟨x, u, z, h, _⟩ | ⟨x, h, _⟩
      · exact absurd hb (key h)
      · cases h
      · cases h
  | some x =>
    cases b with
    | none =>
      rcases hb with ⟨_, h⟩ | ⟨x, u, z, h, _⟩ | ⟨x, h, _⟩
      · exact absurd ha (key h)
      · cases h
      · cases h
    | some y =>
      rcases ha with ⟨h, _⟩ | ⟨a, u, z, e, rfl, rfl, h⟩ | ⟨a, e, h⟩
      · cases h
      · cases e
        rcases hb with ⟨h', _⟩ | ⟨b, u', z', e, hu, hz, h'⟩ | ⟨b, e, h'⟩
        · cases h'
        · cases e; cases hu; cases hz
          rw [hd _ _ _ _ h h']
        · exact absurd (hp _ _ _ h') (by simp [Ty.optional])
      · cases e
        rcases hb with ⟨h', _⟩ | ⟨b, u', z', e, rfl, rfl, h'⟩ | ⟨b, e, h'⟩
        · cases h'
        · exact absurd (hp _ _ _ h) (by simp [Ty.optional])
        · cases e; rw [hd _ _ _ _ h h']

theorem det_hasOpt {A : Type} {w : Way A} (hd : Det w) (hp : Plain w)
    {s s' : List (Nat × Ty × Val)} {t : Ty} {v : Val} (hr : Record s t v) (hr' : Record s' t v)
    {name : String} {a b : Option A} (ha : HasOpt w s name a) (hb : HasOpt w s' name b) : a = b := by
  cases record_unique hr hr'
  rcases ha with ha | ⟨rfl, ha⟩ <;> rcases hb with hb | ⟨rfl, hb⟩
  · exact det_has (det_opt hd hp) hr hr ha hb
  · obtain ⟨u, x, hm, _⟩ := ha
    exact absurd rfl (hb _ hm)
  · obtain ⟨u, x, hm, _⟩ := hb
    exact absurd rfl (ha _ hm)
  · rfl

theorem det_one {A : Type} {w : Way A} (hd : Det w) (name : String) : Det (wOne name w) := by
  rintro a b t v ⟨s, hr, ha⟩ ⟨s', hr', hb⟩
  exact det_has hd hr hr' ha hb

theorem det_each {A : Type} {w : Way A} (hd : Det w) (t : Ty) : ∀ (l l' : List A) (xs : List Val),
    Each w t l xs → Each w t l' xs → l = l'
  | [], [], _, _, _ => rfl
  | [], _ :: _, xs, h, h' => by
    simp only [Each] at h h'
    obtain ⟨x, xs', h', _⟩ := h'
    rw [h] at h'; cases h'
  | _ :: _, [], xs, h, h' => by
    simp only [Each] at h h'
    obtain ⟨x, xs', h, _⟩ := h
    rw [h'] at h; cases h
  | a :: l, b :: l', xs, h, h' => by
    simp only [Each] at h h'
    obtain ⟨x, xs1, rfl, h1, h2⟩ := h
    obtain ⟨x', xs1', he, h1', h2'⟩ := h'
    cases he
    rw [hd _ _ _ _ h1 h1', det_each hd t l l' _ h2 h2']

theorem det_vec {A : Type} {w : Way A} (hd : Det w) : Det (wVec w) := by
  rintro l l' t v ⟨u, xs, rfl, rfl, _, h⟩ ⟨u', xs', he, hv, _, h'⟩
  cases he
  cases vals_inj (Val.vec.inj hv)
  exact det_each hd u l l' xs h h'

theorem case_unique {known : List (String × (Ty → Prop))} {n n' : String} {u u' : Ty}
    {x x' : Val} {t : Ty} {v : Val} (h : Case known n u x t v) (h' : Case known n' u' x' t v) :
    nameHash n = nameHash n' ∧ u = u' ∧ x = x' := by
  obtain ⟨cs, i, rfl, _, _, h1, rfl⟩ := h
  obtain ⟨cs', i', ht, _, _, h1', hv⟩ := h'
  cases fields_inj (Ty.variant.inj ht)
  cases hv
  rw [h1] at h1'
  have := Option.some.inj h1'
  rw [Prod.mk.injEq] at this
  exact ⟨this.1, this.2, rfl⟩

theorem inj_of_nodup {l : List String} (hn : (l.map nameHash).Nodup) {a b : String} (ha : a ∈ l)
    (hb : b ∈ l) (h : nameHash a = nameHash b) : a = b := by
  induction l with
  | nil => cases ha
  | cons c l ih =>
    simp only [List.map_cons, List.nodup_cons] at hn
    rcases List.mem_cons.mp ha with ha | ha <;> rcases List.mem_cons.mp hb with hb | hb
    · rw [ha, hb]
    · rw [ha] at h; exact absurd (List.mem_map.mpr ⟨b, hb, h.symm⟩) hn.1
    · rw [hb] at h; exact absurd (List.mem_map.mpr ⟨a, ha, h⟩) hn.1
    · exact ih hn.2 ha hb

theorem det_variant {A : Type} {known : List (String × (Ty → Prop))}
    {says : A → String × (Ty → Val → Prop)} (names : List String) (hn : (names.map nameHash).Nodup)
    (hs : ∀ a, (says a).1 ∈ names)
    (hd : ∀ a b u x, (says a).1 = (says b).1 → (says a).2 u x → (says b).2 u x → a = b) :
    Det (wVariant known says) := by
  rintro a b t v ⟨u, x, hc, h⟩ ⟨u', x', hc', h'⟩
  obtain ⟨h1, rfl, rfl⟩ := case_unique hc hc'
  exact hd a b u x (inj_of_nodup hn (hs a) (hs b) h1) h h'

theorem det_time : Det wTime := by
  rintro a b t v ⟨m, rfl, h⟩ ⟨m', rfl, h'⟩
  rw [det_of_reads reads_u64 _ _ _ _ h h']

theorem plain_time : Plain wTime := by
  rintro a t v ⟨m, _, h⟩; exact plain_u64 _ _ _ h

theorem det_nat : Det wNat := det_of_reads reads_nat
theorem det_principal : Det wPrincipal := det_of_reads reads_principal

end CyclesLedger.Candid
