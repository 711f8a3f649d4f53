import Verif.Proof.CandidArgs
/-! # Nothing is read that was not written -/
namespace CyclesLedger.Candid
open CyclesLedger.Spec.Candid

/-- What `d` reads is written one of the ways of `w`. -/
def Sound {A : Type} (d : Des A) (w : Way A) : Prop :=
  ∀ t v x, HasTy t v → accepts d.ty t = true → d.get t v = some x → w x t v

theorem sound_nat : Sound desNat wNat := by
  intro t v x ht ha hg
  cases t <;> simp only [desNat, accepts] at ha <;> try cases ha
  case empty => simp only [HasTy] at ht
  simp only [HasTy] at ht; obtain ⟨n, rfl⟩ := ht
  simp only [desNat, Option.some.injEq] at hg; subst hg
  exact ⟨rfl, rfl⟩

theorem sound_principal : Sound desPrincipal wPrincipal := by
  intro t v x ht ha hg
  cases t <;> simp only [desPrincipal, accepts] at ha <;> try cases ha
  case empty => simp only [HasTy] at ht
  simp only [HasTy] at ht; obtain ⟨n, rfl, hn⟩ := ht
  simp only [desPrincipal] at hg
  rw [dif_pos hn] at hg; cases hg
  exact ⟨rfl, rfl⟩

theorem le_ofLE (bs : Bytes) : le bs.length (ofLE bs) = bs := by
  induction bs with
  | nil => rfl
  | cons b bs ih =>
    simp only [List.length_cons, le, ofLE]
    have hb := b.toNat_lt
    have h1 : (b.toNat + 256 * ofLE bs) % 256 = b.toNat := by omega
    have h2 : (b.toNat + 256 * ofLE bs) / 256 = ofLE bs := by omega
    rw [h1, h2, ih, UInt8.ofNat_toNat]

theorem ofLE_lt (bs : Bytes) : ofLE bs < 256 ^ bs.length := by
  induction bs with
  | nil => simp [ofLE]
  | cons b bs ih =>
    simp only [ofLE, List.length_cons, Nat.pow_succ]
    have hb := b.toNat_lt
    omega

theorem sound_u64 : Sound desU64 wU64 := by
  intro t v x ht ha hg
  cases t <;> simp only [desU64, accepts] at ha <;> try cases ha
  case empty => simp only [HasTy] at ht
  rename_i f
  have hf : Fixed.nat64 = f := of_decide_eq_true ha
  subst hf
  simp only [HasTy] at ht; obtain ⟨bs, rfl, hb⟩ := ht
  simp only [desU64, Option.some.injEq] at hg; subst hg
  refine ⟨rfl, ?_⟩
  have h1 := ofLE_lt bs
  have h2 := le_ofLE bs
  simp only [Fixed.width] at hb
  rw [hb] at h1 h2
  rw [UInt64.toNat_ofNat', Nat.mod_eq_of_lt (by omega), h2]

theorem bytes_eq (xs : List Val) (h : ∀ x ∈ xs, HasTy (.fixed .nat8) x) :
    ∃ bs : Bytes, xs = bs.map (fun b => .fixed [b]) := by
  induction xs with
  | nil => exact ⟨[], rfl⟩
  | cons x xs ih =>
    obtain ⟨bs, rfl⟩ := ih (fun y hy => h y (List.mem_cons_of_mem _ hy))
    have := h x List.mem_cons_self
    simp only [HasTy, Fixed.width] at this
    obtain ⟨b, rfl, hb⟩ := this
    match b, hb with
    | [b], _ => exact ⟨b :: bs, rfl⟩

theorem sound_blob : Sound desBlob wBlob := by
  intro t v x ht ha hg
  cases t <;> simp only [desBlob, accepts] at ha <;> try cases ha
  case empty => simp only [HasTy] at ht
  rename_i u
  cases u <;> simp only at ha <;> try cases ha
  case vec.empty.intro =>
    rw [HasTy] at ht; obtain ⟨xs, rfl, hx⟩ := ht
    cases xs with
    | nil => cases hg; exact ⟨.inr ⟨rfl, rfl⟩, rfl⟩
    | cons y xs =>
      have := hx y List.mem_cons_self
      simp only [HasTy] at this
  rename_i f
  have hf : Fixed.nat8 = f := of_decide_eq_true ha
  subst hf
  rw [HasTy] at ht; obtain ⟨xs, rfl, hx⟩ := ht
  obtain ⟨bs, rfl⟩ := bytes_eq xs hx
  simp only [desBlob, bytes_ofList, Option.some.injEq] at hg
  subst hg
  exact ⟨.inl rfl, rfl⟩

theorem sound_subaccount : Sound desSubaccount wSubaccount := by
  intro t v x ht ha hg
  simp only [desSubaccount] at hg
  cases hb : desBlob.get t v with
  | none => rw [hb] at hg; cases hg
  | some bs =>
    rw [hb] at hg
    simp only at hg
    split at hg
    · cases hg
      exact sound_blob t v bs ht ha hb
    · cases hg

theorem sound_some {A : Type} {d : Des A} {w : Way A} (h : Sound d w) {t : Ty} {v : Val} {x : A}
    (ht : HasTy t v) (hg : (desOpt d).get t v = some (some x)) : wOpt w (some x) t v := by
  have key : ∀ (t : Ty) (v : Val), HasTy t v → desSome d t v = some (some x) → w x t v := by
    intro t v ht hg
    simp only [desSome] at hg
    split at hg
    · rename_i ha
      cases hd : d.get t v with
      | none => rw [hd] at hg; cases hg
      | some y => rw [hd] at hg; cases hg; exact h t v x ht ha hd
    · cases hg
  cases t with
  | null => cases hg
  | reserved => cases hg
  | opt u =>
    rw [HasTy] at ht
    rcases ht with rfl | ⟨y, rfl, hy⟩
    · cases hg
    · exact .inr (.inl ⟨x, u, y, rfl, rfl, rfl, key u y hy hg⟩)
  | _ => exact .inr (.inr ⟨x, rfl, key _ _ ht hg⟩)

/-! ## Records -/

theorem fielded_of : ∀ (fs : Fields) (vs : Vals), HasTys fs vs →
    ∃ s : List (Nat × Ty × Val), fs = Fields.ofList (s.map (fun f => (f.1, f.2.1))) ∧
      vs = Vals.ofList (s.map (fun f => f.2.2)) ∧ ∀ f ∈ s, HasTy f.2.1 f.2.2
  | .nil, vs, h => by
    simp only [HasTys] at h; subst h
    exact ⟨[], rfl, rfl, fun f hf => by cases hf⟩
  | .cons l t fs, vs, h => by
    simp only [HasTys] at h; obtain ⟨x, xs, rfl, hx, hxs⟩ := h
    obtain ⟨s, h1, h2, h3⟩ := fielded_of fs xs hxs
    refine ⟨(l, t, x) :: s, by simp only [List.map_cons, Fields.ofList, h1],
      by simp only [List.map_cons, Vals.ofList, h2], ?_⟩
    intro f hf
    rcases List.mem_cons.mp hf with rfl | hf
    · exact hx
    · exact h3 f hf

theorem fielded_struct {L : List (String × Ty)} {t : Ty} {v : Val} (ht : HasTy t v)
    (ha : accepts (struct L) t = true) : ∃ s, Fielded s t v ∧ (∀ f ∈ s, HasTy f.2.1 f.2.2) ∧
      ∀ f ∈ L, Meets t (label f.1) f.2 := by
  cases t <;> simp only [struct, accepts] at ha <;> try cases ha
  case empty => simp only [HasTy] at ht
  rename_i gs
  rw [HasTy] at ht; obtain ⟨vs, rfl, hv⟩ := ht
  obtain ⟨s, h1, h2, h3⟩ := fielded_of gs vs hv
  refine ⟨s, ⟨by rw [h1], by rw [h2]⟩, h3, ?_⟩
  rw [acceptsRecord_iff] at ha
  intro f hf
  exact ⟨gs, rfl, ha (label f.1, f.2) (List.mem_map.mpr ⟨f, hf, rfl⟩)⟩

theorem findField_mem {s : List (Nat × Ty × Val)} {l : Nat} {t : Ty} {v : Val}
    (h : findField l (Fields.ofList (s.map (fun f => (f.1, f.2.1))))
      (Vals.ofList (s.map (fun f => f.2.2))) = some (t, v)) :
    (l, t, v) ∈ s ∧ (Fields.ofList (s.map (fun f => (f.1, f.2.1)))).find l = some t := by
  induction s with
  | nil => cases h
  | cons f s ih =>
    obtain ⟨k, u, y⟩ := f
    simp only [List.map_cons, Fields.ofList, Vals.ofList, findField, Fields.find] at h ⊢
    split at h
    · rename_i e
      cases h; subst e
      exact ⟨List.mem_cons_self, by simp⟩
    · rename_i e
      obtain ⟨h1, h2⟩ := ih h
      exact ⟨List.mem_cons_of_mem _ h1, by rw [if_neg e]; exact h2⟩

theorem sound_has {A : Type} {d : Des A} {w : Way A} (hd : Sound d w) (hm : d.missing = none)
    {s : List (Nat × Ty × Val)} {t : Ty} {v : Val} (hf : Fielded s t v)
    (hs : ∀ f ∈ s, HasTy f.2.1 f.2.2) {name : String} {x : A} (hmt : Meets t (label name) d.ty)
    (hg : field d name t v = some x) : Has w s name x := by
  obtain ⟨rfl, rfl⟩ := hf
  obtain ⟨gs, he, hmt⟩ := hmt
  cases he
  unfold field at hg
  simp only [fieldAt] at hg
  cases hff : findField (label name) (Fields.ofList (s.map (fun f => (f.1, f.2.1))))
      (Vals.ofList (s.map (fun f => f.2.2))) with
  | none => rw [hff] at hg; simp only [hm] at hg; cases hg
  | some p =>
    obtain ⟨u, y⟩ := p
    rw [hff] at hg
    obtain ⟨h1, h2⟩ := findField_mem hff
    rw [h2] at hmt
    rw [label_eq] at h1
    exact ⟨u, y, h1, hd u y x (hs _ h1) hmt hg⟩

theorem sound_says {A : Type} {d : Des A} {w : Way A} (hd : Sound d w)
    {s : List (Nat × Ty × Val)} {t : Ty} {v : Val} (hf : Fielded s t v)
    (hs : ∀ f ∈ s, HasTy f.2.1 f.2.2) {name : String} {o : Option A}
    (hg : field (desOpt d) name t v = some o) : Says w s name o := by
  rintro x rfl
  obtain ⟨rfl, rfl⟩ := hf
  unfold field at hg
  simp only [fieldAt] at hg
  cases hff : findField (label name) (Fields.ofList (s.map (fun f => (f.1, f.2.1))))
      (Vals.ofList (s.map (fun f => f.2.2))) with
  | none => rw [hff] at hg; cases hg
  | some p =>
    obtain ⟨u, y⟩ := p
    rw [hff] at hg
    obtain ⟨h1, _⟩ := findField_mem hff
    rw [label_eq] at h1
    exact ⟨u, y, h1, sound_some hd (hs _ h1) hg⟩

/-! ## The arguments -/

theorem sound_account : Sound desAccount mAccount := by
  intro t v x ht ha hg
  obtain ⟨s, hf, hs, hm⟩ := fielded_struct ht ha
  simp only [desAccount, Option.bind_eq_bind, Option.bind_eq_some_iff, Option.pure_def, Option.some.injEq] at hg
  obtain ⟨x0, g0, x1, g1, rfl⟩ := hg
  have m0 := hm _ (List.mem_of_getElem? (i := 0) rfl)
  exact ⟨s, hf, sound_has sound_principal rfl hf hs m0 g0,
    sound_says sound_subaccount hf hs g1⟩

theorem sound_approve : Sound desApprove mApprove := by
  intro t v x ht ha hg
  obtain ⟨s, hf, hs, hm⟩ := fielded_struct ht ha
  simp only [desApprove, Option.bind_eq_bind, Option.bind_eq_some_iff, Option.pure_def, Option.some.injEq] at hg
  obtain ⟨x0, g0, x1, g1, x2, g2, x3, g3, x4, g4, x5, g5, x6, g6, x7, g7, rfl⟩ := hg
  have m1 := hm _ (List.mem_of_getElem? (i := 1) rfl)
  have m2 := hm _ (List.mem_of_getElem? (i := 2) rfl)
  exact ⟨s, hf, sound_says sound_subaccount hf hs g0,
    sound_has sound_account rfl hf hs m1 g1,
    sound_has sound_nat rfl hf hs m2 g2,
    sound_says sound_nat hf hs g3,
    sound_says sound_u64 hf hs g4,
    sound_says sound_nat hf hs g5,
    sound_says sound_blob hf hs g6,
    sound_says sound_u64 hf hs g7⟩

theorem sound_deposit : Sound desDeposit mDeposit := by
  intro t v x ht ha hg
  obtain ⟨s, hf, hs, hm⟩ := fielded_struct ht ha
  simp only [desDeposit, Option.bind_eq_bind, Option.bind_eq_some_iff, Option.pure_def, Option.some.injEq] at hg
  obtain ⟨x0, g0, x1, g1, rfl⟩ := hg
  have m0 := hm _ (List.mem_of_getElem? (i := 0) rfl)
  exact ⟨s, hf, sound_has sound_account rfl hf hs m0 g0,
    sound_says sound_blob hf hs g1⟩

theorem sound_withdraw : Sound desWithdraw mWithdraw := by
  intro t v x ht ha hg
  obtain ⟨s, hf, hs, hm⟩ := fielded_struct ht ha
  simp only [desWithdraw, Option.bind_eq_bind, Option.bind_eq_some_iff, Option.pure_def, Option.some.injEq] at hg
  obtain ⟨x0, g0, x1, g1, x2, g2, x3, g3, rfl⟩ := hg
  have m3 := hm _ (List.mem_of_getElem? (i := 3) rfl)
  have m1 := hm _ (List.mem_of_getElem? (i := 1) rfl)
  exact ⟨s, hf, sound_has sound_nat rfl hf hs m3 g3,
    sound_says sound_subaccount hf hs g0,
    sound_has sound_principal rfl hf hs m1 g1,
    sound_says sound_u64 hf hs g2⟩

theorem sound_withdrawFrom : Sound desWithdrawFrom mWithdrawFrom := by
  intro t v x ht ha hg
  obtain ⟨s, hf, hs, hm⟩ := fielded_struct ht ha
  simp only [desWithdrawFrom, Option.bind_eq_bind, Option.bind_eq_some_iff, Option.pure_def, Option.some.injEq] at hg
  obtain ⟨x0, g0, x1, g1, x2, g2, x3, g3, x4, g4, rfl⟩ := hg
  have m1 := hm _ (List.mem_of_getElem? (i := 1) rfl)
  have m2 := hm _ (List.mem_of_getElem? (i := 2) rfl)
  have m4 := hm _ (List.mem_of_getElem? (i := 4) rfl)
  exact ⟨s, hf, sound_says sound_subaccount hf hs g0,
    sound_has sound_account rfl hf hs m1 g1,
    sound_has sound_principal rfl hf hs m2 g2,
    sound_has sound_nat rfl hf hs m4 g4,
    sound_says sound_u64 hf hs g3⟩

theorem sound_transfer : Sound desTransfer mTransfer := by
  intro t v x ht ha hg
  obtain ⟨s, hf, hs, hm⟩ := fielded_struct ht ha
  simp only [desTransfer, Option.bind_eq_bind, Option.bind_eq_some_iff, Option.pure_def, Option.some.injEq] at hg
  obtain ⟨x0, g0, x1, g1, x2, g2, x3, g3, x4, g4, x5, g5, rfl⟩ := hg
  have m1 := hm _ (List.mem_of_getElem? (i := 1) rfl)
  have m5 := hm _ (List.mem_of_getElem? (i := 5) rfl)
  exact ⟨s, hf, sound_says sound_subaccount hf hs g0,
    sound_has sound_account rfl hf hs m1 g1,
    sound_has sound_nat rfl hf hs m5 g5,
    sound_says sound_nat hf hs g2,
    sound_says sound_blob hf hs g4,
    sound_says sound_u64 hf hs g3⟩

theorem sound_transferFrom : Sound desTransferFrom mTransferFrom := by
  intro t v x ht ha hg
  obtain ⟨s, hf, hs, hm⟩ := fielded_struct ht ha
  simp only [desTransferFrom, Option.bind_eq_bind, Option.bind_eq_some_iff, Option.pure_def, Option.some.injEq] at hg
  obtain ⟨x0, g0, x1, g1, x2, g2, x3, g3, x4, g4, x5, g5, x6, g6, rfl⟩ := hg
  have m1 := hm _ (List.mem_of_getElem? (i := 1) rfl)
  have m2 := hm _ (List.mem_of_getElem? (i := 2) rfl)
  have m3 := hm _ (List.mem_of_getElem? (i := 3) rfl)
  exact ⟨s, hf, sound_says sound_subaccount hf hs g0,
    sound_has sound_account rfl hf hs m1 g1,
    sound_has sound_account rfl hf hs m2 g2,
    sound_has sound_nat rfl hf hs m3 g3,
    sound_says sound_nat hf hs g4,
    sound_says sound_blob hf hs g5,
    sound_says sound_u64 hf hs g6⟩

theorem sound_create : Sound desCreate mCreate := by
  intro t v x ht ha hg
  obtain ⟨s, hf, hs, hm⟩ := fielded_struct ht ha
  simp only [desCreate, Option.bind_eq_bind, Option.bind_eq_some_iff, Option.pure_def, Option.some.injEq] at hg
  obtain ⟨x0, g0, x1, g1, x2, g2, x3, g3, rfl⟩ := hg
  have m2 := hm _ (List.mem_of_getElem? (i := 2) rfl)
  exact ⟨s, hf, sound_says sound_subaccount hf hs g0,
    sound_says sound_u64 hf hs g1,
    sound_has sound_nat rfl hf hs m2 g2⟩

theorem sound_createFrom : Sound desCreateFrom mCreateFrom := by
  intro t v x ht ha hg
  obtain ⟨s, hf, hs, hm⟩ := fielded_struct ht ha
  simp only [desCreateFrom, Option.bind_eq_bind, Option.bind_eq_some_iff, Option.pure_def, Option.some.injEq] at hg
  obtain ⟨x0, g0, x1, g1, x2, g2, x3, g3, x4, g4, rfl⟩ := hg
  have m0 := hm _ (List.mem_of_getElem? (i := 0) rfl)
  have m3 := hm _ (List.mem_of_getElem? (i := 3) rfl)
  exact ⟨s, hf, sound_has sound_account rfl hf hs m0 g0,
    sound_says sound_subaccount hf hs g1,
    sound_says sound_u64 hf hs g2,
    sound_has sound_nat rfl hf hs m3 g3⟩

theorem decode_sound {A : Type} {d : Des A} {w : Way A} (h : Sound d w) (hm : d.missing = none)
    {bs : Bytes} {args : List (Ty × Val)} {x : A} (hb : IsMessage bs args)
    (hd : decode d bs = some x) : ∃ t v more, args = (t, v) :: more ∧ w x t v := by
  have hr := readMessage_isMessage hb
  simp only [decode, hr] at hd
  cases args with
  | nil => simp only [hm] at hd; cases hd
  | cons a more =>
    obtain ⟨t, v⟩ := a
    refine ⟨t, v, more, rfl, ?_⟩
    simp only at hd
    split at hd
    · rename_i ha
      exact h t v x (isMessage_hasTy hb (t, v) List.mem_cons_self) ha hd
    · cases hd

theorem typed_first {bs : Bytes} {t : Ty} {v : Val} {more : List (Ty × Val)}
    (h : IsMessage bs ((t, v) :: more)) : HasTy t v := by
  exact isMessage_hasTy h (t, v) List.mem_cons_self

theorem typed_mem {s : List (Nat × Ty × Val)}
    (h : HasTys (Fields.ofList (s.map (fun f => (f.1, f.2.1)))) (Vals.ofList (s.map (fun f => f.2.2))))
    {l : Nat} {t : Ty} {v : Val} (hm : (l, t, v) ∈ s) : HasTy t v := by
  induction s with
  | nil => cases hm
  | cons a s ih =>
    simp only [List.map_cons, Fields.ofList, Vals.ofList, HasTys] at h
    obtain ⟨x, xs, he, h1, h2⟩ := h
    simp only [Vals.cons.injEq] at he
    obtain ⟨rfl, rfl⟩ := he
    rcases List.mem_cons.mp hm with rfl | hm
    · exact h1
    · exact ih h2 hm

end CyclesLedger.Candid
