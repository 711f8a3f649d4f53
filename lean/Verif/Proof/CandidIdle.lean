import Verif.Spec.CandidIdle
import Verif.Proof.CandidSound
import Verif.Proof.CandidArgs
/-!
# Parts of a request that say nothing: proofs
-/
namespace CyclesLedger.Candid

open Spec.Candid

/-- What an expected field is checked against. -/
def fitAt (t : Ty) (l : Nat) (e : Ty) : Bool :=
  match t with
  | .record gs =>
    match gs.find l with
    | some u => accepts e u
    | none => e.optional
  | _ => false

/-- A field is the same to a reader in both records. -/
def SameAt (t : Ty) (v : Val) (t' : Ty) (v' : Val) {A : Type} (d : Des A) (name : String) : Prop :=
  fitAt t (label name) d.ty = fitAt t' (label name) d.ty ∧ field d name t v = field d name t' v'

theorem accepts_fit {s : List (Nat × Ty × Val)} {t : Ty} {v : Val} (hr : Record s t v)
    (L : List (String × Ty)) :
    accepts (struct L) t = true ↔ ∀ f ∈ L, fitAt t (label f.1) f.2 = true := by
  obtain ⟨_, rfl, _⟩ := hr
  simp only [struct, accepts]
  rw [acceptsRecord_iff]
  constructor
  · intro h f hf
    exact h (label f.1, f.2) (List.mem_map.mpr ⟨f, hf, rfl⟩)
  · intro h f hf
    obtain ⟨g, hg, rfl⟩ := List.mem_map.mp hf
    exact h g hg

section
variable {s s' : List (Nat × Ty × Val)} {t : Ty} {v : Val} {t' : Ty} {v' : Val}

theorem same_both (hr : Record s t v) (hr' : Record s' t' v') {f : Nat × Ty × Val} {name : String}
    (h : f.1 = nameHash name) (hm : f ∈ s) (hm' : f ∈ s') {A : Type} (d : Des A) :
    SameAt t v t' v' d name := by
  obtain ⟨hs, rfl, rfl⟩ := hr
  obtain ⟨hs', rfl, rfl⟩ := hr'
  obtain ⟨l, u, x⟩ := f
  simp only at h
  subst h
  obtain ⟨h1, h2⟩ := find_types hs hm
  obtain ⟨h3, h4⟩ := find_types hs' hm'
  constructor
  · simp only [fitAt, label_eq, h1, h3]
  · simp only [field, fieldAt, label_eq, h2, h4]

theorem same_neither (hr : Record s t v) (hr' : Record s' t' v') {name : String}
    (hm : ∀ f ∈ s, f.1 ≠ nameHash name) (hm' : ∀ f ∈ s', f.1 ≠ nameHash name) {A : Type} (d : Des A) :
    SameAt t v t' v' d name := by
  obtain ⟨_, rfl, rfl⟩ := hr
  obtain ⟨_, rfl, rfl⟩ := hr'
  obtain ⟨h1, h2⟩ := find_lacks hm
  obtain ⟨h3, h4⟩ := find_lacks hm'
  constructor
  · simp only [fitAt, label_eq, h1, h3]
  · simp only [field, fieldAt, label_eq, h2, h4]

theorem same_void (hr : Record s t v) (hr' : Record s' t' v') (ht : HasTy t v) {A : Type} (d : Des A)
    {f : Nat × Ty × Val} {name : String} (hm : f ∈ s) (h : f.1 = nameHash name)
    (hl : ∀ g ∈ s', g.1 ≠ nameHash name) {k : Kind}
    (hk : ∀ u x, HasTy u x → Unlike k u → accepts d.ty u = false) (hn : Void k f.2.1 f.2.2) :
    SameAt t v t' v' (desOpt d) name := by
  obtain ⟨hs, rfl, rfl⟩ := hr
  obtain ⟨_, rfl, rfl⟩ := hr'
  obtain ⟨l, u, x⟩ := f
  simp only at h hn
  subst h
  obtain ⟨h1, h2⟩ := find_types hs hm
  obtain ⟨h3, h4⟩ := find_lacks hl
  have hx : HasTy u x := by
    rw [HasTy] at ht
    obtain ⟨vs, hv, ht⟩ := ht
    cases hv
    exact typed_mem ht hm
  have hg : (desOpt d).get u x = some none := by
    rcases hn with rfl | rfl | ⟨w, rfl, hw⟩ | ⟨ho, hw⟩
    · rfl
    · rfl
    · rw [HasTy] at hx
      rcases hx with rfl | ⟨y, rfl, hy⟩
      · rfl
      · rcases hw with hw | hw
        · cases hw
        · simp only [desOpt, desSome, hk w y hy hw]; rfl
    · have hp : (desOpt d).get u x = some none ∨ u.optional = false := by
        cases u <;> first | exact .inr rfl | exact .inl rfl | exact absurd rfl (ho _)
      rcases hp with hp | hp
      · exact hp
      · rw [desOpt_plain d hp]
        simp only [desSome, hk u x hx hw]; rfl
  constructor
  · simp only [fitAt, label_eq, h1, h3]; rfl
  · simp only [field, fieldAt, label_eq, h2, h4, hg]; rfl

theorem same_kind {l : List (String × Kind)} (hn : (l.map (fun o => nameHash o.1)).Nodup)
    {o o' : String × Kind} (h : o ∈ l) (h' : o' ∈ l) (hh : nameHash o'.1 = nameHash o.1) : o' = o := by
  induction l with
  | nil => cases h
  | cons p l ih =>
    simp only [List.map_cons, List.nodup_cons] at hn
    rcases List.mem_cons.mp h with h | h
    · rcases List.mem_cons.mp h' with h' | h'
      · rw [h, h']
      · exact absurd (List.mem_map.mpr ⟨o', h', by rw [hh, h]⟩) hn.1
    · rcases List.mem_cons.mp h' with h' | h'
      · exact absurd (List.mem_map.mpr ⟨o, h, by rw [← hh, h']⟩) hn.1
      · exact ih hn.2 h h'

/-- The fields of a method are the same in both records. -/
theorem same_idle (hr : Record s t v) (hr' : Record s' t' v') (ht : HasTy t v)
    {method : String} (hsub : ∀ f ∈ s', f ∈ s) (hi : ∀ f ∈ s, f ∉ s' → Idle method f)
    (hd : ((mustHave method).map nameHash ++ (mayHave method).map (fun o => nameHash o.1)).Nodup) :
    (∀ name ∈ mustHave method, ∀ {A : Type} (d : Des A), SameAt t v t' v' d name) ∧
    ∀ o ∈ mayHave method, ∀ {A : Type} (d : Des A),
      (∀ u x, HasTy u x → Unlike o.2 u → accepts d.ty u = false) →
      SameAt t v t' v' (desOpt d) o.1 := by
  rw [List.nodup_append] at hd
  obtain ⟨_, h2, h3⟩ := hd
  have key : ∀ name, (∀ {A : Type} (d : Des A), SameAt t v t' v' d name) ∨
      ∃ f ∈ s, f.1 = nameHash name ∧ (∀ g ∈ s', g.1 ≠ nameHash name) ∧ Idle method f := by
    intro name
    by_cases hx : ∃ f ∈ s', f.1 = nameHash name
    · obtain ⟨f, hm, he⟩ := hx
      exact .inl (fun d => same_both hr hr' he (hsub f hm) hm d)
    · have hx' : ∀ g ∈ s', g.1 ≠ nameHash name := fun g hg e => hx ⟨g, hg, e⟩
      by_cases hy : ∃ f ∈ s, f.1 = nameHash name
      · obtain ⟨f, hm, he⟩ := hy
        exact .inr ⟨f, hm, he, hx', hi f hm (fun h => hx ⟨f, h, he⟩)⟩
      · exact .inl (fun d => same_neither hr hr' (fun g hg e => hy ⟨g, hg, e⟩) hx' d)
  constructor
  · intro name hm A d
    rcases key name with h | ⟨f, _, he, _, hi⟩
    · exact h d
    · rcases hi with ⟨h, _⟩ | ⟨o, ho, he', _⟩
      · exact absurd he (h name hm)
      · exact absurd (he.symm.trans he')
          (h3 _ (List.mem_map.mpr ⟨name, hm, rfl⟩) _ (List.mem_map.mpr ⟨o, ho, rfl⟩))
  · intro o' ho' A d hk
    rcases key o'.1 with h | ⟨f, hm, he, hl, hi⟩
    · exact h _
    · rcases hi with ⟨_, h⟩ | ⟨o, ho, he', hn⟩
      · exact absurd he (h o' ho')
      · have := same_kind h2 ho ho' (he.symm.trans he')
        subst this
        exact same_void hr hr' ht d hm he hl hk hn

theorem decode_same {A : Type} {d : Des A} {bs bs' : Bytes} {more more' : List (Ty × Val)}
    (h : IsMessage bs ((t, v) :: more)) (hr : Record s t v)
    (h' : IsMessage bs' ((t', v') :: more')) (hr' : Record s' t' v') {L : List (String × Ty)}
    (hL : d.ty = struct L) (hf : ∀ f ∈ L, fitAt t (label f.1) f.2 = fitAt t' (label f.1) f.2)
    (hg : d.get t v = d.get t' v') : decode d bs = decode d bs' := by
  have ha : accepts d.ty t = accepts d.ty t' := by
    rw [hL, Bool.eq_iff_iff, accepts_fit hr, accepts_fit hr']
    exact ⟨fun h f hm => by rw [← hf f hm]; exact h f hm, fun h f hm => by rw [hf f hm]; exact h f hm⟩
  simp only [decode, readMessage_isMessage h, readMessage_isMessage h', ha, hg]

end

theorem unlike_nat (u : Ty) (x : Val) (ht : HasTy u x) (h : Unlike .nat u) :
    accepts desNat.ty u = false := by
  cases u <;> first
    | rfl
    | exact absurd rfl h
    | (simp only [HasTy] at ht)

theorem unlike_nat64 (u : Ty) (x : Val) (ht : HasTy u x) (h : Unlike .nat64 u) :
    accepts desU64.ty u = false := by
  cases u <;> first
    | rfl
    | (simp only [HasTy] at ht; done)
    | (rename_i f; simp only [Unlike] at h; simp only [desU64, accepts, decide_eq_false_iff_not]
       exact fun e => h (by rw [e]))

theorem unlike_blob (u : Ty) (x : Val) (ht : HasTy u x) (h : Unlike .blob u) :
    accepts desBlob.ty u = false := by
  cases u <;> first
    | rfl
    | (simp only [HasTy] at ht; done)
    | skip
  rename_i w
  simp only [Unlike] at h
  simp only [desBlob, accepts]
  cases w <;> first
    | rfl
    | exact absurd rfl h.2
    | (rename_i f; simp only [decide_eq_false_iff_not]; exact fun e => h.1 (by rw [e]))

theorem unlike_record {L : List (String × Ty)} (u : Ty) (x : Val) (ht : HasTy u x)
    (h : Unlike .record u) : accepts (struct L) u = false := by
  cases u <;> first
    | rfl
    | (simp only [HasTy] at ht; done)
    | exact absurd rfl (h _)

end CyclesLedger.Candid
