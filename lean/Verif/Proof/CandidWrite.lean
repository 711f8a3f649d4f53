import Verif.Proof.CandidSound
/-! # Every argument can be written -/
namespace CyclesLedger.Candid
open CyclesLedger.Spec.Candid

def Fields.labels : Fields → List Nat
  | .nil => []
  | .cons l _ fs => l :: fs.labels

mutual
/-- Labels increase, and nothing is cut. -/
def Wf : Ty → Prop
  | .opt t => Wf t
  | .vec t => Wf t
  | .record fs => fs.labels.Pairwise (· < ·) ∧ WfAll fs
  | .variant fs => fs.labels.Pairwise (· < ·) ∧ WfAll fs
  | .cut => False
  | _ => True
def WfAll : Fields → Prop
  | .nil => True
  | .cons _ t fs => Wf t ∧ WfAll fs
end

/-! ## Tables -/

theorem At.mono {table ext : List Comp} {r : Int} {c : Comp} (h : At table r c) :
    At (table ++ ext) r c := by
  obtain ⟨h0, h1⟩ := h
  refine ⟨h0, ?_⟩
  rw [List.getElem?_append_left (List.getElem?_eq_some_iff.mp h1).1]
  exact h1

mutual
theorem denotes_mono {table : List Comp} (ext : List Comp) : ∀ (t : Ty) (r : Int),
    Denotes table t r → Denotes (table ++ ext) t r
  | .opt t, r, h => by
    simp only [Denotes] at h ⊢; obtain ⟨s, h1, h2⟩ := h
    exact ⟨s, At.mono h1, denotes_mono ext t s h2⟩
  | .vec t, r, h => by
    simp only [Denotes] at h ⊢; obtain ⟨s, h1, h2⟩ := h
    exact ⟨s, At.mono h1, denotes_mono ext t s h2⟩
  | .record fs, r, h => by
    simp only [Denotes] at h ⊢; obtain ⟨s, h1, h2⟩ := h
    exact ⟨s, At.mono h1, denotesAll_mono ext fs s h2⟩
  | .variant fs, r, h => by
    simp only [Denotes] at h ⊢; obtain ⟨s, h1, h2⟩ := h
    exact ⟨s, At.mono h1, denotesAll_mono ext fs s h2⟩
  | .func, r, h => by
    simp only [Denotes] at h ⊢; obtain ⟨s, h1, h2⟩ := h
    exact ⟨s, At.mono h1, h2⟩
  | .service, r, h => by
    simp only [Denotes] at h ⊢; obtain ⟨s, h1, h2⟩ := h
    exact ⟨s, At.mono h1, h2⟩
  | .cut, r, h => by simp only [Denotes] at h
  | .empty, r, h => by simp only [Denotes] at h ⊢; exact h
  | .null, r, h => by simp only [Denotes] at h ⊢; exact h
  | .bool, r, h => by simp only [Denotes] at h ⊢; exact h
  | .nat, r, h => by simp only [Denotes] at h ⊢; exact h
  | .int, r, h => by simp only [Denotes] at h ⊢; exact h
  | .text, r, h => by simp only [Denotes] at h ⊢; exact h
  | .reserved, r, h => by simp only [Denotes] at h ⊢; exact h
  | .principal, r, h => by simp only [Denotes] at h ⊢; exact h
  | .fixed _, r, h => by simp only [Denotes] at h ⊢; exact h
theorem denotesAll_mono {table : List Comp} (ext : List Comp) : ∀ (fs : Fields)
    (l : List (Nat × Int)), DenotesAll table fs l → DenotesAll (table ++ ext) fs l
  | .nil, l, h => by simp only [DenotesAll] at h ⊢; exact h
  | .cons lb t fs, l, h => by
    simp only [DenotesAll] at h ⊢; obtain ⟨s, rest, h0, h1, h2⟩ := h
    exact ⟨s, rest, h0, denotes_mono ext t s h1, denotesAll_mono ext fs rest h2⟩
end

theorem denotesAll_ok {table : List Comp} : ∀ (fs : Fields) (l : List (Nat × Int)),
    DenotesAll table fs l → l.map Prod.fst = fs.labels ∧ ∀ f ∈ l, Refers table f.2
  | .nil, l, h => by
    simp only [DenotesAll] at h; subst h
    exact ⟨rfl, fun f hf => by cases hf⟩
  | .cons lb t fs, l, h => by
    simp only [DenotesAll] at h; obtain ⟨s, rest, rfl, h1, h2⟩ := h
    obtain ⟨h3, h4⟩ := denotesAll_ok fs rest h2
    refine ⟨by simp only [List.map_cons, h3, Fields.labels], ?_⟩
    intro f hf
    rcases List.mem_cons.mp hf with rfl | hf
    · exact denotes_refers h1
    · exact h4 f hf

theorem at_last (table ext : List Comp) (c : Comp) :
    At (table ++ (ext ++ [c])) ((table ++ ext).length : Nat) c := by
  refine ⟨by omega, ?_⟩
  rw [← List.append_assoc, Int.toNat_natCast, List.getElem?_append_right (Nat.le_refl _)]
  simp

theorem fieldsOk_of {table : List Comp} {fs : Fields} {l : List (Nat × Int)}
    (h : DenotesAll table fs l) (hw : fs.labels.Pairwise (· < ·)) : FieldsOk table l := by
  obtain ⟨h1, h2⟩ := denotesAll_ok fs l h
  refine ⟨?_, h2⟩
  rw [← h1, List.pairwise_map] at hw
  exact hw

theorem Refers.mono {table : List Comp} (ext : List Comp) {r : Int} (h : Refers table r) :
    Refers (table ++ ext) r :=
  h.imp id (Or.imp id (fun ⟨c, h⟩ => ⟨c, At.mono h⟩))

theorem compOk_mono {table : List Comp} (ext : List Comp) {c : Comp} (h : CompOk table c) :
    CompOk (table ++ ext) c := by
  cases c with
  | opt r => exact Refers.mono ext h
  | vec r => exact Refers.mono ext h
  | record fs => exact ⟨h.1, fun f hf => Refers.mono ext (h.2 f hf)⟩
  | variant fs => exact ⟨h.1, fun f hf => Refers.mono ext (h.2 f hf)⟩
  | func as rs notes =>
    exact ⟨fun r hr => Refers.mono ext (h.1 r hr), fun r hr => Refers.mono ext (h.2.1 r hr), h.2.2⟩
  | service ms =>
    refine ⟨h.1, fun m hm => ?_⟩
    obtain ⟨as, rs, notes, h⟩ := h.2 m hm
    exact ⟨as, rs, notes, At.mono h⟩

theorem compOk_snoc {table ext : List Comp} {c : Comp} (h : ∀ c ∈ ext, CompOk (table ++ ext) c)
    (hc : CompOk (table ++ ext) c) : ∀ d ∈ ext ++ [c], CompOk (table ++ (ext ++ [c])) d := by
  intro d hd
  rw [← List.append_assoc]
  rcases List.mem_append.mp hd with hd | hd
  · exact compOk_mono _ (h d hd)
  · rw [List.mem_singleton] at hd; subst hd; exact compOk_mono _ hc

mutual
theorem exists_table : ∀ (t : Ty) (table : List Comp), Wf t →
    ∃ (ext : List Comp) (r : Int), (∀ c ∈ ext, CompOk (table ++ ext) c) ∧ Denotes (table ++ ext) t r
  | .opt t, table, h => by
    simp only [Wf] at h
    obtain ⟨ext, r, h1, h2⟩ := exists_table t table h
    refine ⟨ext ++ [.opt r], ((table ++ ext).length : Nat), compOk_snoc h1 (by rw [CompOk]; exact denotes_refers h2), ?_⟩
    simp only [Denotes]
    refine ⟨r, at_last _ _ _, ?_⟩
    rw [← List.append_assoc]; exact denotes_mono _ t r h2
  | .vec t, table, h => by
    simp only [Wf] at h
    obtain ⟨ext, r, h1, h2⟩ := exists_table t table h
    refine ⟨ext ++ [.vec r], ((table ++ ext).length : Nat), compOk_snoc h1 (by rw [CompOk]; exact denotes_refers h2), ?_⟩
    simp only [Denotes]
    refine ⟨r, at_last _ _ _, ?_⟩
    rw [← List.append_assoc]; exact denotes_mono _ t r h2
  | .record fs, table, h => by
    simp only [Wf] at h
    obtain ⟨ext, l, h1, h2⟩ := exists_tableAll fs table h.2
    refine ⟨ext ++ [.record l], ((table ++ ext).length : Nat),
      compOk_snoc h1 (by rw [CompOk]; exact fieldsOk_of h2 h.1), ?_⟩
    simp only [Denotes]
    refine ⟨l, at_last _ _ _, ?_⟩
    rw [← List.append_assoc]; exact denotesAll_mono _ fs l h2
  | .variant fs, table, h => by
    simp only [Wf] at h
    obtain ⟨ext, l, h1, h2⟩ := exists_tableAll fs table h.2
    refine ⟨ext ++ [.variant l], ((table ++ ext).length : Nat),
      compOk_snoc h1 (by rw [CompOk]; exact fieldsOk_of h2 h.1), ?_⟩
    simp only [Denotes]
    refine ⟨l, at_last _ _ _, ?_⟩
    rw [← List.append_assoc]; exact denotesAll_mono _ fs l h2
  | .cut, _, h => by simp only [Wf] at h
  | .func, table, _ => by
    refine ⟨[.func [] [] []], (table.length : Nat), fun c hc => ?_, ?_⟩
    · rw [List.mem_singleton] at hc; subst hc
      exact ⟨fun r hr => (by cases hr), fun r hr => (by cases hr), List.mem_cons_self⟩
    · simp only [Denotes]
      refine ⟨([], [], []), ?_, by omega⟩
      have := at_last table [] (.func [] [] [])
      simpa using this
  | .service, table, _ => by
    refine ⟨[.service []], (table.length : Nat), fun c hc => ?_, ?_⟩
    · rw [List.mem_singleton] at hc; subst hc
      exact ⟨List.Pairwise.nil, fun r hr => (by cases hr)⟩
    · simp only [Denotes]
      refine ⟨[], ?_, by omega⟩
      have := at_last table [] (.service [])
      simpa using this
  | .empty, _, _ => ⟨[], -17, (fun c hc => by cases hc), by simp only [Denotes]⟩
  | .null, _, _ => ⟨[], -1, (fun c hc => by cases hc), by simp only [Denotes]⟩
  | .bool, _, _ => ⟨[], -2, (fun c hc => by cases hc), by simp only [Denotes]⟩
  | .nat, _, _ => ⟨[], -3, (fun c hc => by cases hc), by simp only [Denotes]⟩
  | .int, _, _ => ⟨[], -4, (fun c hc => by cases hc), by simp only [Denotes]⟩
  | .text, _, _ => ⟨[], -15, (fun c hc => by cases hc), by simp only [Denotes]⟩
  | .reserved, _, _ => ⟨[], -16, (fun c hc => by cases hc), by simp only [Denotes]⟩
  | .principal, _, _ => ⟨[], -24, (fun c hc => by cases hc), by simp only [Denotes]⟩
  | .fixed f, _, _ => ⟨[], fixedCode f, (fun c hc => by cases hc), by simp only [Denotes]⟩
theorem exists_tableAll : ∀ (fs : Fields) (table : List Comp), WfAll fs →
    ∃ (ext : List Comp) (l : List (Nat × Int)), (∀ c ∈ ext, CompOk (table ++ ext) c) ∧
      DenotesAll (table ++ ext) fs l
  | .nil, _, _ => ⟨[], [], (fun c hc => by cases hc), by simp only [DenotesAll]⟩
  | .cons lb t fs, table, h => by
    simp only [WfAll] at h
    obtain ⟨e1, r, h1, h2⟩ := exists_table t table h.1
    obtain ⟨e2, l, h3, h4⟩ := exists_tableAll fs (table ++ e1) h.2
    refine ⟨e1 ++ e2, (lb, r) :: l, ?_, ?_⟩
    · intro c hc
      rw [← List.append_assoc]
      rcases List.mem_append.mp hc with hc | hc
      · exact compOk_mono _ (h1 c hc)
      · exact h3 c hc
    · simp only [DenotesAll]
      rw [← List.append_assoc]
      exact ⟨r, l, rfl, denotes_mono _ t r h2, h4⟩
end

/-! ## Records in order -/

theorem exists_insert {B : Type} (a : Nat × B) (s : List (Nat × B))
    (hs : s.Pairwise (fun a b => a.1 < b.1)) (ha : ∀ b ∈ s, b.1 ≠ a.1) :
    ∃ s' : List (Nat × B), s'.Pairwise (fun a b => a.1 < b.1) ∧ ∀ f, f ∈ s' ↔ f = a ∨ f ∈ s := by
  induction s with
  | nil => exact ⟨[a], by simp, by simp⟩
  | cons b s ih =>
    have hs' := List.pairwise_cons.mp hs
    have hab := ha b List.mem_cons_self
    rcases Nat.lt_or_gt_of_ne hab with h | h
    · obtain ⟨s', h1, h2⟩ := ih hs'.2 (fun c hc => ha c (List.mem_cons_of_mem _ hc))
      refine ⟨b :: s', List.pairwise_cons.mpr ⟨?_, h1⟩, ?_⟩
      · intro c hc
        rcases (h2 c).mp hc with rfl | hc
        · exact h
        · exact hs'.1 c hc
      · intro f
        simp only [List.mem_cons, h2]
        constructor
        · rintro (h | h | h)
          · exact .inr (.inl h)
          · exact .inl h
          · exact .inr (.inr h)
        · rintro (h | h | h)
          · exact .inr (.inl h)
          · exact .inl h
          · exact .inr (.inr h)
    · refine ⟨a :: b :: s, List.pairwise_cons.mpr ⟨?_, hs⟩, by simp⟩
      intro c hc
      rcases List.mem_cons.mp hc with rfl | hc
      · exact h
      · exact Nat.lt_trans h (hs'.1 c hc)

theorem exists_sorted {B : Type} (l : List (Nat × B)) (hn : (l.map Prod.fst).Nodup) :
    ∃ s : List (Nat × B), s.Pairwise (fun a b => a.1 < b.1) ∧ ∀ f, f ∈ s ↔ f ∈ l := by
  induction l with
  | nil => exact ⟨[], List.Pairwise.nil, fun _ => Iff.rfl⟩
  | cons a l ih =>
    have hn' := List.nodup_cons.mp hn
    obtain ⟨s, h1, h2⟩ := ih hn'.2
    obtain ⟨s', h3, h4⟩ := exists_insert a s h1 (fun b hb e =>
      hn'.1 (List.mem_map.mpr ⟨b, (h2 b).mp hb, e⟩))
    exact ⟨s', h3, fun f => by rw [h4, h2, List.mem_cons]⟩

theorem labels_ofList (l : List (Nat × Ty)) : (Fields.ofList l).labels = l.map Prod.fst := by
  induction l with
  | nil => rfl
  | cons a l ih => simp only [Fields.ofList, Fields.labels, List.map_cons, ih]

theorem wfAll_ofList (l : List (Nat × Ty)) (h : ∀ f ∈ l, Wf f.2) : WfAll (Fields.ofList l) := by
  induction l with
  | nil => simp only [Fields.ofList, WfAll]
  | cons a l ih =>
    simp only [Fields.ofList, WfAll]
    exact ⟨h a List.mem_cons_self, ih (fun f hf => h f (List.mem_cons_of_mem _ hf))⟩

theorem hasTys_ofList (s : List (Nat × Ty × Val)) (h : ∀ f ∈ s, HasTy f.2.1 f.2.2) :
    HasTys (Fields.ofList (s.map (fun f => (f.1, f.2.1)))) (Vals.ofList (s.map (fun f => f.2.2))) := by
  induction s with
  | nil => simp only [List.map_nil, Fields.ofList, Vals.ofList, HasTys]
  | cons a s ih =>
    simp only [List.map_cons, Fields.ofList, Vals.ofList, HasTys]
    exact ⟨_, _, rfl, h a List.mem_cons_self, ih (fun f hf => h f (List.mem_cons_of_mem _ hf))⟩

/-- All values can be written in one type. -/
def Uniform {A : Type} (w : Way A) : Prop :=
  ∃ (t : Ty) (f : A → Val), Wf t ∧ ∀ x, w x t (f x) ∧ HasTy t (f x)

/-- A record type with the given fields, and its values. -/
theorem uniform_record {A : Type} (l : List (Nat × Ty × (A → Val)))
    (hn : (l.map Prod.fst).Nodup) (hw : ∀ f ∈ l, Wf f.2.1 ∧ ∀ x, HasTy f.2.1 (f.2.2 x)) :
    ∃ (t : Ty) (f : A → Val), Wf t ∧ ∀ x, HasTy t (f x) ∧ ∃ s, Record s t (f x) ∧
      ∀ e ∈ l, (e.1, e.2.1, e.2.2 x) ∈ s := by
  obtain ⟨s, h1, h2⟩ := exists_sorted l hn
  refine ⟨.record (Fields.ofList (s.map (fun f => (f.1, f.2.1)))),
    fun x => .record (Vals.ofList (s.map (fun f => f.2.2 x))), ?_, fun x => ⟨?_, ?_⟩⟩
  · simp only [Wf, labels_ofList, List.map_map]
    refine ⟨?_, wfAll_ofList _ ?_⟩
    · rw [List.pairwise_map]; exact h1
    · intro f hf
      obtain ⟨g, hg, rfl⟩ := List.mem_map.mp hf
      exact (hw g ((h2 g).mp hg)).1
  · rw [HasTy]
    refine ⟨_, rfl, ?_⟩
    have := hasTys_ofList (s.map (fun f => (f.1, f.2.1, f.2.2 x))) (by
      intro f hf
      obtain ⟨g, hg, rfl⟩ := List.mem_map.mp hf
      exact (hw g ((h2 g).mp hg)).2 x)
    simp only [List.map_map] at this
    exact this
  · refine ⟨s.map (fun f => (f.1, f.2.1, f.2.2 x)), ⟨?_, ?_, ?_⟩, ?_⟩
    · rw [List.pairwise_map]; exact h1
    · simp only [List.map_map]; rfl
    · simp only [List.map_map]; rfl
    · intro e he
      exact List.mem_map.mpr ⟨e, (h2 e).mpr he, rfl⟩

/-! ## Simple values -/

theorem uniform_nat : Uniform wNat :=
  ⟨.nat, .nat, by simp only [Wf], fun x => ⟨⟨rfl, rfl⟩, by simp only [HasTy]; exact ⟨x, rfl⟩⟩⟩

theorem le_length (k n : Nat) : (le k n).length = k := by
  induction k generalizing n with
  | zero => rfl
  | succ k ih => simp only [le, List.length_cons, ih]

theorem uniform_u64 : Uniform wU64 :=
  ⟨.fixed .nat64, fun x => .fixed (le 8 x.toNat), by simp only [Wf], fun x => ⟨⟨rfl, rfl⟩, by
    simp only [HasTy]; exact ⟨_, rfl, le_length 8 _⟩⟩⟩

theorem uniform_text : Uniform wText :=
  ⟨.text, .text, by simp only [Wf], fun x => ⟨⟨rfl, rfl⟩, by simp only [HasTy]; exact ⟨x, rfl⟩⟩⟩

theorem uniform_principal : Uniform wPrincipal :=
  ⟨.principal, fun p => .principal p.bytes, by simp only [Wf], fun x => ⟨⟨rfl, rfl⟩, by
    simp only [HasTy]; exact ⟨_, rfl, x.le⟩⟩⟩

theorem uniform_blob : Uniform wBlob :=
  ⟨.vec (.fixed .nat8), fun bs => .vec (Vals.ofList (bs.map (fun b => .fixed [b]))),
    by simp only [Wf], fun x => ⟨⟨.inl rfl, rfl⟩, by
      rw [HasTy]
      refine ⟨_, rfl, ?_⟩
      intro y hy
      obtain ⟨b, _, rfl⟩ := List.mem_map.mp hy
      simp only [HasTy]
      exact ⟨_, rfl, rfl⟩⟩⟩

theorem uniform_subaccount : Uniform wSubaccount := by
  obtain ⟨t, f, h1, h2⟩ := uniform_blob
  exact ⟨t, fun s => f s.val, h1, fun s => h2 s.val⟩

theorem uniform_opt {A : Type} {w : Way A} (h : Uniform w) : Uniform (wOpt w) := by
  obtain ⟨t, f, h1, h2⟩ := h
  refine ⟨.opt t, fun o => match o with | none => .none | some x => .some (f x),
    by simp only [Wf]; exact h1, ?_⟩
  intro o
  cases o with
  | none => exact ⟨.inl ⟨rfl, .inr (.inr ⟨⟨t, rfl⟩, rfl⟩)⟩, by rw [HasTy]; exact .inl rfl⟩
  | some x =>
    exact ⟨.inr (.inl ⟨x, t, f x, rfl, rfl, rfl, (h2 x).1⟩), by
      rw [HasTy]; exact .inr ⟨f x, rfl, (h2 x).2⟩⟩

theorem each_map {A : Type} {w : Way A} {t : Ty} {f : A → Val} (h : ∀ x, w x t (f x)) :
    ∀ l : List A, Each w t l (l.map f)
  | [] => by simp only [Each, List.map_nil]
  | a :: l => by
    simp only [Each, List.map_cons]
    exact ⟨_, _, rfl, h a, each_map h l⟩

theorem uniform_vec {A : Type} {w : Way A} (a : A) (h : Uniform w) : Uniform (wVec w) := by
  obtain ⟨t, f, h1, h2⟩ := h
  refine ⟨.vec t, fun l => .vec (Vals.ofList (l.map f)), by simp only [Wf]; exact h1, ?_⟩
  intro l
  refine ⟨⟨t, l.map f, rfl, rfl, ⟨a, f a, (h2 a).1⟩, each_map (fun x => (h2 x).1) l⟩, ?_⟩
  rw [HasTy]
  refine ⟨_, rfl, ?_⟩
  intro y hy
  obtain ⟨x, _, rfl⟩ := List.mem_map.mp hy
  exact (h2 x).2

/-! ## Variants -/

theorem hasCase_of (cs : List (Nat × Ty)) (i : Nat) {l : Nat} {u : Ty} {x : Val}
    (h : cs[i]? = some (l, u)) (hx : HasTy u x) : HasCase (Fields.ofList cs) i x := by
  induction cs generalizing i with
  | nil => cases h
  | cons c cs ih =>
    obtain ⟨k, t⟩ := c
    simp only [Fields.ofList, HasCase]
    cases i with
    | zero =>
      rw [List.getElem?_cons_zero] at h; cases h
      exact .inl ⟨rfl, hx⟩
    | succ i =>
      rw [List.getElem?_cons_succ] at h
      exact .inr ⟨i, rfl, ih i h⟩

/-- A variant type with the given cases. -/
theorem uniform_cases (known : List (String × (Ty → Prop))) (l : List (String × Ty))
    (hn : (l.map (fun c => nameHash c.1)).Nodup)
    (hk : ∀ c ∈ l, Wf c.2 ∧ ∃ k ∈ known, k.1 = c.1 ∧ k.2 c.2) :
    ∃ t : Ty, Wf t ∧ ∀ c ∈ l, ∃ i, ∀ x, HasTy c.2 x →
      Case known c.1 c.2 x t (.variant i x) ∧ HasTy t (.variant i x) := by
  obtain ⟨s, h1, h2⟩ := exists_sorted (l.map (fun c => (nameHash c.1, c.2))) (by
    rw [List.map_map]; exact hn)
  refine ⟨.variant (Fields.ofList s), ?_, ?_⟩
  · simp only [Wf, labels_ofList]
    refine ⟨by rw [List.pairwise_map]; exact h1, wfAll_ofList _ ?_⟩
    intro f hf
    obtain ⟨c, hc, rfl⟩ := List.mem_map.mp ((h2 f).mp hf)
    exact (hk c hc).1
  · intro c hc
    have hm : (nameHash c.1, c.2) ∈ s := (h2 _).mpr (List.mem_map.mpr ⟨c, hc, rfl⟩)
    obtain ⟨i, hi⟩ := List.getElem?_of_mem hm
    refine ⟨i, fun x hx => ⟨⟨s, i, rfl, h1, ?_, hi, rfl⟩, ?_⟩⟩
    · intro d hd
      obtain ⟨e, he, rfl⟩ := List.mem_map.mp ((h2 d).mp hd)
      obtain ⟨_, k, hkm, hke, hku⟩ := hk e he
      exact ⟨k, hkm, by rw [hke], hku⟩
    · rw [HasTy]
      exact ⟨i, x, rfl, hasCase_of s i hi hx⟩

theorem fits_of {A : Type} {w : Way A} {t : Ty} {f : A → Val} (a : A)
    (h : ∀ x, w x t (f x) ∧ HasTy t (f x)) : Fits w t := ⟨a, f a, (h a).1⟩

/-! ## The arguments -/

def somePrincipal : Principal := ⟨[], by decide⟩

theorem uniform_account : Uniform wAccount := by
  obtain ⟨t0, f0, w0, h0⟩ := uniform_principal
  obtain ⟨t1, f1, w1, h1⟩ := (uniform_opt uniform_subaccount)
  obtain ⟨t, f, hwf, hall⟩ := uniform_record (A := Account)
    [(nameHash "owner", t0, fun a => f0 a.owner),
      (nameHash "subaccount", t1, fun a => f1 a.subaccount)]
    (by simp only [List.map_cons, List.map_nil]; decide +kernel)
    (by
      simp only [List.mem_cons, List.not_mem_nil, or_false]
      rintro e (rfl | rfl)
      · exact ⟨w0, fun x => (h0 _).2⟩
      · exact ⟨w1, fun x => (h1 _).2⟩)
  refine ⟨t, f, hwf, fun a => ⟨?_, (hall a).1⟩⟩
  obtain ⟨_, s, hr, hm⟩ := hall a
  exact ⟨s, hr, ⟨_, _, hm _ (List.mem_of_getElem? (i := 0) rfl), (h0 _).1⟩,
    .inl ⟨_, _, hm _ (List.mem_of_getElem? (i := 1) rfl), (h1 _).1⟩⟩

theorem uniform_allowance : Uniform wAllowance := by
  obtain ⟨t0, f0, w0, h0⟩ := uniform_account
  obtain ⟨t1, f1, w1, h1⟩ := uniform_account
  obtain ⟨t, f, hwf, hall⟩ := uniform_record (A := (Account × Account))
    [(nameHash "account", t0, fun a => f0 a.1),
      (nameHash "spender", t1, fun a => f1 a.2)]
    (by simp only [List.map_cons, List.map_nil]; decide +kernel)
    (by
      simp only [List.mem_cons, List.not_mem_nil, or_false]
      rintro e (rfl | rfl)
      · exact ⟨w0, fun x => (h0 _).2⟩
      · exact ⟨w1, fun x => (h1 _).2⟩)
  refine ⟨t, f, hwf, fun a => ⟨?_, (hall a).1⟩⟩
  obtain ⟨_, s, hr, hm⟩ := hall a
  exact ⟨s, hr, ⟨_, _, hm _ (List.mem_of_getElem? (i := 0) rfl), (h0 _).1⟩,
    ⟨_, _, hm _ (List.mem_of_getElem? (i := 1) rfl), (h1 _).1⟩⟩

theorem uniform_approve : Uniform wApprove := by
  obtain ⟨t0, f0, w0, h0⟩ := (uniform_opt uniform_subaccount)
  obtain ⟨t1, f1, w1, h1⟩ := uniform_account
  obtain ⟨t2, f2, w2, h2⟩ := uniform_nat
  obtain ⟨t3, f3, w3, h3⟩ := (uniform_opt uniform_nat)
  obtain ⟨t4, f4, w4, h4⟩ := (uniform_opt uniform_u64)
  obtain ⟨t5, f5, w5, h5⟩ := (uniform_opt uniform_nat)
  obtain ⟨t6, f6, w6, h6⟩ := (uniform_opt uniform_blob)
  obtain ⟨t7, f7, w7, h7⟩ := (uniform_opt uniform_u64)
  obtain ⟨t, f, hwf, hall⟩ := uniform_record (A := ApproveArgs)
    [(nameHash "from_subaccount", t0, fun a => f0 a.fromSubaccount),
      (nameHash "spender", t1, fun a => f1 a.spender),
      (nameHash "amount", t2, fun a => f2 a.amount),
      (nameHash "expected_allowance", t3, fun a => f3 a.expectedAllowance),
      (nameHash "expires_at", t4, fun a => f4 a.expiresAt),
      (nameHash "fee", t5, fun a => f5 a.fee),
      (nameHash "memo", t6, fun a => f6 a.memo),
      (nameHash "created_at_time", t7, fun a => f7 a.createdAtTime)]
    (by simp only [List.map_cons, List.map_nil]; decide +kernel)
    (by
      simp only [List.mem_cons, List.not_mem_nil, or_false]
      rintro e (rfl | rfl | rfl | rfl | rfl | rfl | rfl | rfl)
      · exact ⟨w0, fun x => (h0 _).2⟩
      · exact ⟨w1, fun x => (h1 _).2⟩
      · exact ⟨w2, fun x => (h2 _).2⟩
      · exact ⟨w3, fun x => (h3 _).2⟩
      · exact ⟨w4, fun x => (h4 _).2⟩
      · exact ⟨w5, fun x => (h5 _).2⟩
      · exact ⟨w6, fun x => (h6 _).2⟩
      · exact ⟨w7, fun x => (h7 _).2⟩)
  refine ⟨t, f, hwf, fun a => ⟨?_, (hall a).1⟩⟩
  obtain ⟨_, s, hr, hm⟩ := hall a
  exact ⟨s, hr, .inl ⟨_, _, hm _ (List.mem_of_getElem? (i := 0) rfl), (h0 _).1⟩,
    ⟨_, _, hm _ (List.mem_of_getElem? (i := 1) rfl), (h1 _).1⟩,
    ⟨_, _, hm _ (List.mem_of_getElem? (i := 2) rfl), (h2 _).1⟩,
    .inl ⟨_, _, hm _ (List.mem_of_getElem? (i := 3) rfl), (h3 _).1⟩,
    .inl ⟨_, _, hm _ (List.mem_of_getElem? (i := 4) rfl), (h4 _).1⟩,
    .inl ⟨_, _, hm _ (List.mem_of_getElem? (i := 5) rfl), (h5 _).1⟩,
    .inl ⟨_, _, hm _ (List.mem_of_getElem? (i := 6) rfl), (h6 _).1⟩,
    .inl ⟨_, _, hm _ (List.mem_of_getElem? (i := 7) rfl), (h7 _).1⟩⟩

theorem uniform_deposit : Uniform wDeposit := by
  obtain ⟨t0, f0, w0, h0⟩ := uniform_account
  obtain ⟨t1, f1, w1, h1⟩ := (uniform_opt uniform_blob)
  obtain ⟨t, f, hwf, hall⟩ := uniform_record (A := DepositArg)
    [(nameHash "to", t0, fun a => f0 a.to),
      (nameHash "memo", t1, fun a => f1 a.memo)]
    (by simp only [List.map_cons, List.map_nil]; decide +kernel)
    (by
      simp only [List.mem_cons, List.not_mem_nil, or_false]
      rintro e (rfl | rfl)
      · exact ⟨w0, fun x => (h0 _).2⟩
      · exact ⟨w1, fun x => (h1 _).2⟩)
  refine ⟨t, f, hwf, fun a => ⟨?_, (hall a).1⟩⟩
  obtain ⟨_, s, hr, hm⟩ := hall a
  exact ⟨s, hr, ⟨_, _, hm _ (List.mem_of_getElem? (i := 0) rfl), (h0 _).1⟩,
    .inl ⟨_, _, hm _ (List.mem_of_getElem? (i := 1) rfl), (h1 _).1⟩⟩

theorem uniform_withdraw : Uniform wWithdraw := by
  obtain ⟨t0, f0, w0, h0⟩ := uniform_nat
  obtain ⟨t1, f1, w1, h1⟩ := (uniform_opt uniform_subaccount)
  obtain ⟨t2, f2, w2, h2⟩ := uniform_principal
  obtain ⟨t3, f3, w3, h3⟩ := (uniform_opt uniform_u64)
  obtain ⟨t, f, hwf, hall⟩ := uniform_record (A := WithdrawArgs)
    [(nameHash "amount", t0, fun a => f0 a.amount),
      (nameHash "from_subaccount", t1, fun a => f1 a.fromSubaccount),
      (nameHash "to", t2, fun a => f2 a.to),
      (nameHash "created_at_time", t3, fun a => f3 a.createdAtTime)]
    (by simp only [List.map_cons, List.map_nil]; decide +kernel)
    (by
      simp only [List.mem_cons, List.not_mem_nil, or_false]
      rintro e (rfl | rfl | rfl | rfl)
      · exact ⟨w0, fun x => (h0 _).2⟩
      · exact ⟨w1, fun x => (h1 _).2⟩
      · exact ⟨w2, fun x => (h2 _).2⟩
      · exact ⟨w3, fun x => (h3 _).2⟩)
  refine ⟨t, f, hwf, fun a => ⟨?_, (hall a).1⟩⟩
  obtain ⟨_, s, hr, hm⟩ := hall a
  exact ⟨s, hr, ⟨_, _, hm _ (List.mem_of_getElem? (i := 0) rfl), (h0 _).1⟩,
    .inl ⟨_, _, hm _ (List.mem_of_getElem? (i := 1) rfl), (h1 _).1⟩,
    ⟨_, _, hm _ (List.mem_of_getElem? (i := 2) rfl), (h2 _).1⟩,
    .inl ⟨_, _, hm _ (List.mem_of_getElem? (i := 3) rfl), (h3 _).1⟩⟩

theorem uniform_withdrawFrom : Uniform wWithdrawFrom := by
  obtain ⟨t0, f0, w0, h0⟩ := (uniform_opt uniform_subaccount)
  obtain ⟨t1, f1, w1, h1⟩ := uniform_account
  obtain ⟨t2, f2, w2, h2⟩ := uniform_principal
  obtain ⟨t3, f3, w3, h3⟩ := uniform_nat
  obtain ⟨t4, f4, w4, h4⟩ := (uniform_opt uniform_u64)
  obtain ⟨t, f, hwf, hall⟩ := uniform_record (A := WithdrawFromArgs)
    [(nameHash "spender_subaccount", t0, fun a => f0 a.spenderSubaccount),
      (nameHash "from", t1, fun a => f1 a.frm),
      (nameHash "to", t2, fun a => f2 a.to),
      (nameHash "amount", t3, fun a => f3 a.amount),
      (nameHash "created_at_time", t4, fun a => f4 a.createdAtTime)]
    (by simp only [List.map_cons, List.map_nil]; decide +kernel)
    (by
      simp only [List.mem_cons, List.not_mem_nil, or_false]
      rintro e (rfl | rfl | rfl | rfl | rfl)
      · exact ⟨w0, fun x => (h0 _).2⟩
      · exact ⟨w1, fun x => (h1 _).2⟩
      · exact ⟨w2, fun x => (h2 _).2⟩
      · exact ⟨w3, fun x => (h3 _).2⟩
      · exact ⟨w4, fun x => (h4 _).2⟩)
  refine ⟨t, f, hwf, fun a => ⟨?_, (hall a).1⟩⟩
  obtain ⟨_, s, hr, hm⟩ := hall a
  exact ⟨s, hr, .inl ⟨_, _, hm _ (List.mem_of_getElem? (i := 0) rfl), (h0 _).1⟩,
    ⟨_, _, hm _ (List.mem_of_getElem? (i := 1) rfl), (h1 _).1⟩,
    ⟨_, _, hm _ (List.mem_of_getElem? (i := 2) rfl), (h2 _).1⟩,
    ⟨_, _, hm _ (List.mem_of_getElem? (i := 3) rfl), (h3 _).1⟩,
    .inl ⟨_, _, hm _ (List.mem_of_getElem? (i := 4) rfl), (h4 _).1⟩⟩

theorem uniform_transfer : Uniform wTransfer := by
  obtain ⟨t0, f0, w0, h0⟩ := (uniform_opt uniform_subaccount)
  obtain ⟨t1, f1, w1, h1⟩ := uniform_account
  obtain ⟨t2, f2, w2, h2⟩ := uniform_nat
  obtain ⟨t3, f3, w3, h3⟩ := (uniform_opt uniform_nat)
  obtain ⟨t4, f4, w4, h4⟩ := (uniform_opt uniform_blob)
  obtain ⟨t5, f5, w5, h5⟩ := (uniform_opt uniform_u64)
  obtain ⟨t, f, hwf, hall⟩ := uniform_record (A := TransferArgs)
    [(nameHash "from_subaccount", t0, fun a => f0 a.fromSubaccount),
      (nameHash "to", t1, fun a => f1 a.to),
      (nameHash "amount", t2, fun a => f2 a.amount),
      (nameHash "fee", t3, fun a => f3 a.fee),
      (nameHash "memo", t4, fun a => f4 a.memo),
      (nameHash "created_at_time", t5, fun a => f5 a.createdAtTime)]
    (by simp only [List.map_cons, List.map_nil]; decide +kernel)
    (by
      simp only [List.mem_cons, List.not_mem_nil, or_false]
      rintro e (rfl | rfl | rfl | rfl | rfl | rfl)
      · exact ⟨w0, fun x => (h0 _).2⟩
      · exact ⟨w1, fun x => (h1 _).2⟩
      · exact ⟨w2, fun x => (h2 _).2⟩
      · exact ⟨w3, fun x => (h3 _).2⟩
      · exact ⟨w4, fun x => (h4 _).2⟩
      · exact ⟨w5, fun x => (h5 _).2⟩)
  refine ⟨t, f, hwf, fun a => ⟨?_, (hall a).1⟩⟩
  obtain ⟨_, s, hr, hm⟩ := hall a
  exact ⟨s, hr, .inl ⟨_, _, hm _ (List.mem_of_getElem? (i := 0) rfl), (h0 _).1⟩,
    ⟨_, _, hm _ (List.mem_of_getElem? (i := 1) rfl), (h1 _).1⟩,
    ⟨_, _, hm _ (List.mem_of_getElem? (i := 2) rfl), (h2 _).1⟩,
    .inl ⟨_, _, hm _ (List.mem_of_getElem? (i := 3) rfl), (h3 _).1⟩,
    .inl ⟨_, _, hm _ (List.mem_of_getElem? (i := 4) rfl), (h4 _).1⟩,
    .inl ⟨_, _, hm _ (List.mem_of_getElem? (i := 5) rfl), (h5 _).1⟩⟩

theorem uniform_transferFrom : Uniform wTransferFrom := by
  obtain ⟨t0, f0, w0, h0⟩ := (uniform_opt uniform_subaccount)
  obtain ⟨t1, f1, w1, h1⟩ := uniform_account
  obtain ⟨t2, f2, w2, h2⟩ := uniform_account
  obtain ⟨t3, f3, w3, h3⟩ := uniform_nat
  obtain ⟨t4, f4, w4, h4⟩ := (uniform_opt uniform_nat)
  obtain ⟨t5, f5, w5, h5⟩ := (uniform_opt uniform_blob)
  obtain ⟨t6, f6, w6, h6⟩ := (uniform_opt uniform_u64)
  obtain ⟨t, f, hwf, hall⟩ := uniform_record (A := TransferFromArgs)
    [(nameHash "spender_subaccount", t0, fun a => f0 a.spenderSubaccount),
      (nameHash "from", t1, fun a => f1 a.frm),
      (nameHash "to", t2, fun a => f2 a.to),
      (nameHash "amount", t3, fun a => f3 a.amount),
      (nameHash "fee", t4, fun a => f4 a.fee),
      (nameHash "memo", t5, fun a => f5 a.memo),
      (nameHash "created_at_time", t6, fun a => f6 a.createdAtTime)]
    (by simp only [List.map_cons, List.map_nil]; decide +kernel)
    (by
      simp only [List.mem_cons, List.not_mem_nil, or_false]
      rintro e (rfl | rfl | rfl | rfl | rfl | rfl | rfl)
      · exact ⟨w0, fun x => (h0 _).2⟩
      · exact ⟨w1, fun x => (h1 _).2⟩
      · exact ⟨w2, fun x => (h2 _).2⟩
      · exact ⟨w3, fun x => (h3 _).2⟩
      · exact ⟨w4, fun x => (h4 _).2⟩
      · exact ⟨w5, fun x => (h5 _).2⟩
      · exact ⟨w6, fun x => (h6 _).2⟩)
  refine ⟨t, f, hwf, fun a => ⟨?_, (hall a).1⟩⟩
  obtain ⟨_, s, hr, hm⟩ := hall a
  exact ⟨s, hr, .inl ⟨_, _, hm _ (List.mem_of_getElem? (i := 0) rfl), (h0 _).1⟩,
    ⟨_, _, hm _ (List.mem_of_getElem? (i := 1) rfl), (h1 _).1⟩,
    ⟨_, _, hm _ (List.mem_of_getElem? (i := 2) rfl), (h2 _).1⟩,
    ⟨_, _, hm _ (List.mem_of_getElem? (i := 3) rfl), (h3 _).1⟩,
    .inl ⟨_, _, hm _ (List.mem_of_getElem? (i := 4) rfl), (h4 _).1⟩,
    .inl ⟨_, _, hm _ (List.mem_of_getElem? (i := 5) rfl), (h5 _).1⟩,
    .inl ⟨_, _, hm _ (List.mem_of_getElem? (i := 6) rfl), (h6 _).1⟩⟩

theorem uniform_range : Uniform wRange := by
  obtain ⟨t0, f0, w0, h0⟩ := uniform_nat
  obtain ⟨t1, f1, w1, h1⟩ := uniform_nat
  obtain ⟨t, f, hwf, hall⟩ := uniform_record (A := GetBlocksArg)
    [(nameHash "start", t0, fun a => f0 a.start),
      (nameHash "length", t1, fun a => f1 a.length)]
    (by simp only [List.map_cons, List.map_nil]; decide +kernel)
    (by
      simp only [List.mem_cons, List.not_mem_nil, or_false]
      rintro e (rfl | rfl)
      · exact ⟨w0, fun x => (h0 _).2⟩
      · exact ⟨w1, fun x => (h1 _).2⟩)
  refine ⟨t, f, hwf, fun a => ⟨?_, (hall a).1⟩⟩
  obtain ⟨_, s, hr, hm⟩ := hall a
  exact ⟨s, hr, ⟨_, _, hm _ (List.mem_of_getElem? (i := 0) rfl), (h0 _).1⟩,
    ⟨_, _, hm _ (List.mem_of_getElem? (i := 1) rfl), (h1 _).1⟩⟩

theorem uniform_getAllowances : Uniform wGetAllowances := by
  obtain ⟨t0, f0, w0, h0⟩ := (uniform_opt uniform_account)
  obtain ⟨t1, f1, w1, h1⟩ := (uniform_opt uniform_account)
  obtain ⟨t2, f2, w2, h2⟩ := (uniform_opt uniform_nat)
  obtain ⟨t, f, hwf, hall⟩ := uniform_record (A := (Option Account × Option Account × Option Nat))
    [(nameHash "from_account", t0, fun a => f0 a.1),
      (nameHash "prev_spender", t1, fun a => f1 a.2.1),
      (nameHash "take", t2, fun a => f2 a.2.2)]
    (by simp only [List.map_cons, List.map_nil]; decide +kernel)
    (by
      simp only [List.mem_cons, List.not_mem_nil, or_false]
      rintro e (rfl | rfl | rfl)
      · exact ⟨w0, fun x => (h0 _).2⟩
      · exact ⟨w1, fun x => (h1 _).2⟩
      · exact ⟨w2, fun x => (h2 _).2⟩)
  refine ⟨t, f, hwf, fun a => ⟨?_, (hall a).1⟩⟩
  obtain ⟨_, s, hr, hm⟩ := hall a
  exact ⟨s, hr, .inl ⟨_, _, hm _ (List.mem_of_getElem? (i := 0) rfl), (h0 _).1⟩,
    .inl ⟨_, _, hm _ (List.mem_of_getElem? (i := 1) rfl), (h1 _).1⟩,
    .inl ⟨_, _, hm _ (List.mem_of_getElem? (i := 2) rfl), (h2 _).1⟩⟩

theorem uniform_variable : Uniform wVariable := by
  obtain ⟨t0, f0, w0, h0⟩ := uniform_text
  obtain ⟨t1, f1, w1, h1⟩ := uniform_text
  obtain ⟨t, f, hwf, hall⟩ := uniform_record (A := (Bytes × Bytes))
    [(nameHash "name", t0, fun a => f0 a.1),
      (nameHash "value", t1, fun a => f1 a.2)]
    (by simp only [List.map_cons, List.map_nil]; decide +kernel)
    (by
      simp only [List.mem_cons, List.not_mem_nil, or_false]
      rintro e (rfl | rfl)
      · exact ⟨w0, fun x => (h0 _).2⟩
      · exact ⟨w1, fun x => (h1 _).2⟩)
  refine ⟨t, f, hwf, fun a => ⟨?_, (hall a).1⟩⟩
  obtain ⟨_, s, hr, hm⟩ := hall a
  exact ⟨s, hr, ⟨_, _, hm _ (List.mem_of_getElem? (i := 0) rfl), (h0 _).1⟩,
    ⟨_, _, hm _ (List.mem_of_getElem? (i := 1) rfl), (h1 _).1⟩⟩

theorem uniform_logVisibility : Uniform wLogVisibility := by
  obtain ⟨t2, f2, w2, h2⟩ := (uniform_vec somePrincipal uniform_principal)
  obtain ⟨t, hwf, hall⟩ := uniform_cases [("controllers", IsNull), ("public", IsNull),
    ("allowed_viewers", Fits (wVec wPrincipal))]
    [("controllers", .null), ("public", .null), ("allowed_viewers", t2)]
    (by simp only [List.map_cons, List.map_nil]; decide +kernel)
    (by
      simp only [List.mem_cons, List.not_mem_nil, or_false]
      rintro e (rfl | rfl | rfl)
      · refine ⟨by simp only [Wf], ("controllers", IsNull), ?_, rfl, rfl⟩; simp only [true_or, or_true]
      · refine ⟨by simp only [Wf], ("public", IsNull), ?_, rfl, rfl⟩; simp only [true_or, or_true]
      · refine ⟨w2, ("allowed_viewers", Fits (wVec wPrincipal)), ?_, rfl, fits_of [] h2⟩; simp only [true_or, or_true])
  obtain ⟨i0, g0⟩ := hall _ (List.mem_of_getElem? (i := 0) rfl)
  obtain ⟨i1, g1⟩ := hall _ (List.mem_of_getElem? (i := 1) rfl)
  obtain ⟨i2, g2⟩ := hall _ (List.mem_of_getElem? (i := 2) rfl)
  refine ⟨t, fun a => match a with
    | .controllers => .variant i0 .null
    | .pub => .variant i1 .null
    | .allowedViewers x => .variant i2 (f2 x), hwf, ?_⟩
  intro a
  cases a with
  | controllers => exact g0 .null (by simp only [HasTy])
  | pub => exact g1 .null (by simp only [HasTy])
  | allowedViewers x => exact ⟨⟨t2, f2 x, (g2 _ (h2 x).2).1, (h2 x).1⟩, (g2 _ (h2 x).2).2⟩

theorem uniform_settings : Uniform wSettings := by
  obtain ⟨t0, f0, w0, h0⟩ := (uniform_opt (uniform_vec somePrincipal uniform_principal))
  obtain ⟨t1, f1, w1, h1⟩ := (uniform_opt uniform_nat)
  obtain ⟨t2, f2, w2, h2⟩ := (uniform_opt uniform_nat)
  obtain ⟨t3, f3, w3, h3⟩ := (uniform_opt uniform_nat)
  obtain ⟨t4, f4, w4, h4⟩ := (uniform_opt uniform_nat)
  obtain ⟨t5, f5, w5, h5⟩ := (uniform_opt uniform_nat)
  obtain ⟨t6, f6, w6, h6⟩ := (uniform_opt uniform_nat)
  obtain ⟨t7, f7, w7, h7⟩ := (uniform_opt uniform_logVisibility)
  obtain ⟨t8, f8, w8, h8⟩ := (uniform_opt (uniform_vec ([], []) uniform_variable))
  obtain ⟨t, f, hwf, hall⟩ := uniform_record (A := CanisterSettings)
    [(nameHash "controllers", t0, fun a => f0 a.controllers),
      (nameHash "compute_allocation", t1, fun a => f1 a.computeAllocation),
      (nameHash "memory_allocation", t2, fun a => f2 a.memoryAllocation),
      (nameHash "freezing_threshold", t3, fun a => f3 a.freezingThreshold),
      (nameHash "reserved_cycles_limit", t4, fun a => f4 a.reservedCyclesLimit),
      (nameHash "wasm_memory_limit", t5, fun a => f5 a.wasmMemoryLimit),
      (nameHash "wasm_memory_threshold", t6, fun a => f6 a.wasmMemoryThreshold),
      (nameHash "log_visibility", t7, fun a => f7 a.logVisibility),
      (nameHash "environment_variables", t8, fun a => f8 a.environmentVariables)]
    (by simp only [List.map_cons, List.map_nil]; decide +kernel)
    (by
      simp only [List.mem_cons, List.not_mem_nil, or_false]
      rintro e (rfl | rfl | rfl | rfl | rfl | rfl | rfl | rfl | rfl)
      · exact ⟨w0, fun x => (h0 _).2⟩
      · exact ⟨w1, fun x => (h1 _).2⟩
      · exact ⟨w2, fun x => (h2 _).2⟩
      · exact ⟨w3, fun x => (h3 _).2⟩
      · exact ⟨w4, fun x => (h4 _).2⟩
      · exact ⟨w5, fun x => (h5 _).2⟩
      · exact ⟨w6, fun x => (h6 _).2⟩
      · exact ⟨w7, fun x => (h7 _).2⟩
      · exact ⟨w8, fun x => (h8 _).2⟩)
  refine ⟨t, f, hwf, fun a => ⟨?_, (hall a).1⟩⟩
  obtain ⟨_, s, hr, hm⟩ := hall a
  exact ⟨s, hr, .inl ⟨_, _, hm _ (List.mem_of_getElem? (i := 0) rfl), (h0 _).1⟩,
    .inl ⟨_, _, hm _ (List.mem_of_getElem? (i := 1) rfl), (h1 _).1⟩,
    .inl ⟨_, _, hm _ (List.mem_of_getElem? (i := 2) rfl), (h2 _).1⟩,
    .inl ⟨_, _, hm _ (List.mem_of_getElem? (i := 3) rfl), (h3 _).1⟩,
    .inl ⟨_, _, hm _ (List.mem_of_getElem? (i := 4) rfl), (h4 _).1⟩,
    .inl ⟨_, _, hm _ (List.mem_of_getElem? (i := 5) rfl), (h5 _).1⟩,
    .inl ⟨_, _, hm _ (List.mem_of_getElem? (i := 6) rfl), (h6 _).1⟩,
    .inl ⟨_, _, hm _ (List.mem_of_getElem? (i := 7) rfl), (h7 _).1⟩,
    .inl ⟨_, _, hm _ (List.mem_of_getElem? (i := 8) rfl), (h8 _).1⟩⟩

theorem uniform_filter : Uniform wFilter := by
  obtain ⟨t0, f0, w0, h0⟩ := (uniform_opt uniform_text)
  obtain ⟨t, f, hwf, hall⟩ := uniform_record (A := (Option Bytes))
    [(nameHash "subnet_type", t0, fun o => f0 o)]
    (by simp only [List.map_cons, List.map_nil]; decide +kernel)
    (by
      simp only [List.mem_cons, List.not_mem_nil, or_false]
      rintro e rfl
      exact ⟨w0, fun x => (h0 _).2⟩)
  refine ⟨t, f, hwf, fun a => ⟨?_, (hall a).1⟩⟩
  obtain ⟨_, s, hr, hm⟩ := hall a
  exact ⟨s, hr, .inl ⟨_, _, hm _ (List.mem_of_getElem? (i := 0) rfl), (h0 _).1⟩⟩

theorem uniform_subnet : Uniform wSubnet := by
  obtain ⟨t0, f0, w0, h0⟩ := uniform_principal
  obtain ⟨t, f, hwf, hall⟩ := uniform_record (A := Principal)
    [(nameHash "subnet", t0, fun p => f0 p)]
    (by simp only [List.map_cons, List.map_nil]; decide +kernel)
    (by
      simp only [List.mem_cons, List.not_mem_nil, or_false]
      rintro e rfl
      exact ⟨w0, fun x => (h0 _).2⟩)
  refine ⟨t, f, hwf, fun a => ⟨?_, (hall a).1⟩⟩
  obtain ⟨_, s, hr, hm⟩ := hall a
  exact ⟨s, hr, ⟨_, _, hm _ (List.mem_of_getElem? (i := 0) rfl), (h0 _).1⟩⟩

theorem uniform_selection : Uniform wSelection := by
  obtain ⟨t0, f0, w0, h0⟩ := uniform_filter
  obtain ⟨t1, f1, w1, h1⟩ := uniform_subnet
  obtain ⟨t, hwf, hall⟩ := uniform_cases [("Filter", Fits wFilter), ("Subnet", Fits wSubnet)]
    [("Filter", t0), ("Subnet", t1)]
    (by simp only [List.map_cons, List.map_nil]; decide +kernel)
    (by
      simp only [List.mem_cons, List.not_mem_nil, or_false]
      rintro e (rfl | rfl)
      · refine ⟨w0, ("Filter", Fits wFilter), ?_, rfl, fits_of none h0⟩; simp only [true_or, or_true]
      · refine ⟨w1, ("Subnet", Fits wSubnet), ?_, rfl, fits_of somePrincipal h1⟩; simp only [true_or, or_true])
  obtain ⟨i0, g0⟩ := hall _ (List.mem_of_getElem? (i := 0) rfl)
  obtain ⟨i1, g1⟩ := hall _ (List.mem_of_getElem? (i := 1) rfl)
  refine ⟨t, fun a => match a with
    | .filter x => .variant i0 (f0 x)
    | .subnet x => .variant i1 (f1 x), hwf, ?_⟩
  intro a
  cases a with
  | filter x => exact ⟨⟨t0, f0 x, (g0 _ (h0 x).2).1, (h0 x).1⟩, (g0 _ (h0 x).2).2⟩
  | subnet x => exact ⟨⟨t1, f1 x, (g1 _ (h1 x).2).1, (h1 x).1⟩, (g1 _ (h1 x).2).2⟩

theorem uniform_cmcArgs : Uniform wCmcArgs := by
  obtain ⟨t0, f0, w0, h0⟩ := (uniform_opt uniform_settings)
  obtain ⟨t1, f1, w1, h1⟩ := (uniform_opt uniform_selection)
  obtain ⟨t, f, hwf, hall⟩ := uniform_record (A := CmcArgs)
    [(nameHash "settings", t0, fun a => f0 a.settings),
      (nameHash "subnet_selection", t1, fun a => f1 a.subnetSelection)]
    (by simp only [List.map_cons, List.map_nil]; decide +kernel)
    (by
      simp only [List.mem_cons, List.not_mem_nil, or_false]
      rintro e (rfl | rfl)
      · exact ⟨w0, fun x => (h0 _).2⟩
      · exact ⟨w1, fun x => (h1 _).2⟩)
  refine ⟨t, f, hwf, fun a => ⟨?_, (hall a).1⟩⟩
  obtain ⟨_, s, hr, hm⟩ := hall a
  exact ⟨s, hr, .inl ⟨_, _, hm _ (List.mem_of_getElem? (i := 0) rfl), (h0 _).1⟩,
    .inl ⟨_, _, hm _ (List.mem_of_getElem? (i := 1) rfl), (h1 _).1⟩⟩

theorem uniform_create : Uniform wCreate := by
  obtain ⟨t0, f0, w0, h0⟩ := (uniform_opt uniform_subaccount)
  obtain ⟨t1, f1, w1, h1⟩ := (uniform_opt uniform_u64)
  obtain ⟨t2, f2, w2, h2⟩ := uniform_nat
  obtain ⟨t3, f3, w3, h3⟩ := (uniform_opt uniform_cmcArgs)
  obtain ⟨t, f, hwf, hall⟩ := uniform_record (A := CreateCanisterArgs)
    [(nameHash "from_subaccount", t0, fun a => f0 a.fromSubaccount),
      (nameHash "created_at_time", t1, fun a => f1 a.createdAtTime),
      (nameHash "amount", t2, fun a => f2 a.amount),
      (nameHash "creation_args", t3, fun a => f3 a.creationArgs)]
    (by simp only [List.map_cons, List.map_nil]; decide +kernel)
    (by
      simp only [List.mem_cons, List.not_mem_nil, or_false]
      rintro e (rfl | rfl | rfl | rfl)
      · exact ⟨w0, fun x => (h0 _).2⟩
      · exact ⟨w1, fun x => (h1 _).2⟩
      · exact ⟨w2, fun x => (h2 _).2⟩
      · exact ⟨w3, fun x => (h3 _).2⟩)
  refine ⟨t, f, hwf, fun a => ⟨?_, (hall a).1⟩⟩
  obtain ⟨_, s, hr, hm⟩ := hall a
  exact ⟨s, hr, .inl ⟨_, _, hm _ (List.mem_of_getElem? (i := 0) rfl), (h0 _).1⟩,
    .inl ⟨_, _, hm _ (List.mem_of_getElem? (i := 1) rfl), (h1 _).1⟩,
    ⟨_, _, hm _ (List.mem_of_getElem? (i := 2) rfl), (h2 _).1⟩,
    .inl ⟨_, _, hm _ (List.mem_of_getElem? (i := 3) rfl), (h3 _).1⟩⟩

theorem uniform_createFrom : Uniform wCreateFrom := by
  obtain ⟨t0, f0, w0, h0⟩ := uniform_account
  obtain ⟨t1, f1, w1, h1⟩ := (uniform_opt uniform_subaccount)
  obtain ⟨t2, f2, w2, h2⟩ := (uniform_opt uniform_u64)
  obtain ⟨t3, f3, w3, h3⟩ := uniform_nat
  obtain ⟨t4, f4, w4, h4⟩ := (uniform_opt uniform_cmcArgs)
  obtain ⟨t, f, hwf, hall⟩ := uniform_record (A := CreateCanisterFromArgs)
    [(nameHash "from", t0, fun a => f0 a.frm),
      (nameHash "spender_subaccount", t1, fun a => f1 a.spenderSubaccount),
      (nameHash "created_at_time", t2, fun a => f2 a.createdAtTime),
      (nameHash "amount", t3, fun a => f3 a.amount),
      (nameHash "creation_args", t4, fun a => f4 a.creationArgs)]
    (by simp only [List.map_cons, List.map_nil]; decide +kernel)
    (by
      simp only [List.mem_cons, List.not_mem_nil, or_false]
      rintro e (rfl | rfl | rfl | rfl | rfl)
      · exact ⟨w0, fun x => (h0 _).2⟩
      · exact ⟨w1, fun x => (h1 _).2⟩
      · exact ⟨w2, fun x => (h2 _).2⟩
      · exact ⟨w3, fun x => (h3 _).2⟩
      · exact ⟨w4, fun x => (h4 _).2⟩)
  refine ⟨t, f, hwf, fun a => ⟨?_, (hall a).1⟩⟩
  obtain ⟨_, s, hr, hm⟩ := hall a
  exact ⟨s, hr, ⟨_, _, hm _ (List.mem_of_getElem? (i := 0) rfl), (h0 _).1⟩,
    .inl ⟨_, _, hm _ (List.mem_of_getElem? (i := 1) rfl), (h1 _).1⟩,
    .inl ⟨_, _, hm _ (List.mem_of_getElem? (i := 2) rfl), (h2 _).1⟩,
    ⟨_, _, hm _ (List.mem_of_getElem? (i := 3) rfl), (h3 _).1⟩,
    .inl ⟨_, _, hm _ (List.mem_of_getElem? (i := 4) rfl), (h4 _).1⟩⟩

theorem exists_message {A : Type} {w : Way A} (h : Uniform w) (x : A) :
    ∃ bs t v, IsMessage bs [(t, v)] ∧ w x t v := by
  obtain ⟨t, f, h1, h2⟩ := h
  obtain ⟨ext, r, h3, h4⟩ := exists_table t [] h1
  refine ⟨message ext [r] [(t, f x)], t, f x, isMessage_of (by simpa using h3) ⟨rfl, ?_⟩, (h2 x).1⟩
  rintro p hp
  simp only [List.zip_cons_cons, List.zip_nil_right, List.mem_singleton] at hp
  subst hp
  exact ⟨by simpa using h4, (h2 x).2⟩

end CyclesLedger.Candid
