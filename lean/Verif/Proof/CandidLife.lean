import Verif.Spec.Life
import Verif.Proof.CandidCalls
/-! # Nothing is read that was not written, continued -/
namespace CyclesLedger.Candid
open CyclesLedger.Spec.Candid

/-- `Sound`, for types whose labels are in order. -/
def SoundW {A : Type} (d : Des A) (w : Way A) : Prop :=
  ∀ t v x, Sorted t → HasTy t v → accepts d.ty t = true → d.get t v = some x → w x t v

theorem Sound.wf {A : Type} {d : Des A} {w : Way A} (h : Sound d w) : SoundW d w :=
  fun t v x _ => h t v x

theorem soundW_some {A : Type} {d : Des A} {w : Way A} (h : SoundW d w) {t : Ty} {v : Val} {x : A}
    (hw : Sorted t) (ht : HasTy t v) (hg : (desOpt d).get t v = some (some x)) :
    wOpt w (some x) t v := by
  have key : ∀ (t : Ty) (v : Val), Sorted t → HasTy t v → desSome d t v = some (some x) → w x t v := by
    intro t v hw ht hg
    simp only [desSome] at hg
    split at hg
    · rename_i ha
      cases hd : d.get t v with
      | none => rw [hd] at hg; cases hg
      | some y => rw [hd] at hg; cases hg; exact h t v x hw ht ha hd
    · cases hg
  cases t with
  | null => cases hg
  | reserved => cases hg
  | opt u =>
    rw [HasTy] at ht
    rw [Sorted] at hw
    rcases ht with rfl | ⟨y, rfl, hy⟩
    · cases hg
    · exact .inr (.inl ⟨x, u, y, rfl, rfl, rfl, key u y hw hy hg⟩)
  | _ => exact .inr (.inr ⟨x, rfl, key _ _ hw ht hg⟩)

theorem soundW_vec {A : Type} {d : Des A} {w : Way A} (h : SoundW d w) :
    SoundW (desVec d) (mVec w) := by
  intro t v x hw ht ha hg
  cases t <;> simp only [desVec, accepts] at ha <;> try cases ha
  case empty => simp only [HasTy] at ht
  rename_i u
  rw [HasTy] at ht; obtain ⟨xs, rfl, hx⟩ := ht
  rw [Sorted] at hw
  refine ⟨u, xs, rfl, rfl, ?_⟩
  simp only [desVec, toList_ofList] at hg
  induction xs generalizing x with
  | nil => cases hg; rfl
  | cons y ys ih =>
    simp only [allSome] at hg
    cases hy : d.get u y with
    | none => rw [hy] at hg; cases hg
    | some b =>
      rw [hy] at hg
      simp only [Option.map_eq_some_iff] at hg
      obtain ⟨bs, hb, rfl⟩ := hg
      exact ⟨y, ys, rfl, h u y b hw (hx y List.mem_cons_self) ha hy,
        ih bs (fun z hz => hx z (List.mem_cons_of_mem _ hz)) hb⟩

/-- What is known about an accepted record. -/
structure Met (L : List (Nat × Ty)) (s : List (Nat × Ty × Val)) (t : Ty) (v : Val) : Prop where
  record : Record s t v
  wf : ∀ f ∈ s, Sorted f.2.1
  typed : ∀ f ∈ s, HasTy f.2.1 f.2.2
  meets : ∀ f ∈ L, Meets t f.1 f.2

theorem taken_record {L : List (Nat × Ty)} {t : Ty} {v : Val} (hw : Sorted t) (ht : HasTy t v)
    (ha : accepts (.record (Fields.ofList L)) t = true) : ∃ s, Met L s t v := by
  cases t <;> simp only [accepts] at ha <;> try cases ha
  case empty => simp only [HasTy] at ht
  rename_i gs
  have hw' := hw
  rw [HasTy] at ht; obtain ⟨vs, rfl, hv⟩ := ht
  obtain ⟨s, h1, h2, h3⟩ := fielded_of gs vs hv
  refine ⟨s, record_of_fielded hw' ⟨by rw [h1], by rw [h2]⟩, ?_, h3, ?_⟩
  · simp only [Sorted] at hw
    intro f hf
    rw [h1] at hw
    exact sortedAll_mem _ hw.2 (f.1, f.2.1) (List.mem_map.mpr ⟨f, hf, rfl⟩)
  · rw [acceptsRecord_iff] at ha
    intro f hf
    exact ⟨gs, rfl, ha f hf⟩

theorem taken_struct {L : List (String × Ty)} {t : Ty} {v : Val} (hw : Sorted t) (ht : HasTy t v)
    (ha : accepts (struct L) t = true) :
    ∃ s, Met (L.map (fun f => (label f.1, f.2))) s t v := taken_record hw ht ha

theorem Met.hasAt {A : Type} {d : Des A} {w : Way A} (hd : SoundW d w) (hm : d.missing = none)
    {L : List (Nat × Ty)} {s : List (Nat × Ty × Val)} {t : Ty} {v : Val} (h : Met L s t v)
    {l : Nat} {x : A} (hl : (l, d.ty) ∈ L) (hg : fieldAt d l t v = some x) : HasAt w s l x := by
  obtain ⟨gs, he, hmt⟩ := h.meets _ hl
  obtain ⟨_, rfl, rfl⟩ := h.record
  cases he
  simp only [fieldAt] at hg
  cases hff : findField l (Fields.ofList (s.map (fun f => (f.1, f.2.1))))
      (Vals.ofList (s.map (fun f => f.2.2))) with
  | none => rw [hff] at hg; simp only [hm] at hg; cases hg
  | some p =>
    obtain ⟨u, y⟩ := p
    rw [hff] at hg
    obtain ⟨h1, h2⟩ := findField_mem hff
    simp only at hmt
    rw [h2] at hmt
    exact ⟨u, y, h1, hd u y x (h.wf _ h1) (h.typed _ h1) hmt hg⟩

theorem Met.has {A : Type} {d : Des A} {w : Way A} (hd : SoundW d w) (hm : d.missing = none)
    {L : List (Nat × Ty)} {s : List (Nat × Ty × Val)} {t : Ty} {v : Val} (h : Met L s t v)
    {name : String} {x : A} (hg : field d name t v = some x) (hl : (label name, d.ty) ∈ L) :
    Has w s name x := by
  have := h.hasAt hd hm hl hg
  rw [label_eq] at this
  exact this

theorem Met.says {A : Type} {d : Des A} {w : Way A} (hd : SoundW d w)
    {L : List (Nat × Ty)} {s : List (Nat × Ty × Val)} {t : Ty} {v : Val} (h : Met L s t v)
    {name : String} {o : Option A} (hg : field (desOpt d) name t v = some o) : Says w s name o := by
  rintro x rfl
  obtain ⟨_, rfl, rfl⟩ := h.record
  unfold field at hg
  simp only [fieldAt] at hg
  cases hff : findField (label name) (Fields.ofList (s.map (fun f => (f.1, f.2.1))))
      (Vals.ofList (s.map (fun f => f.2.2))) with
  | none => rw [hff] at hg; cases hg
  | some p =>
    obtain ⟨u, y⟩ := p
    rw [hff] at hg
    obtain ⟨h1, _⟩ := findField_mem hff
    have h2 := h1
    rw [label_eq] at h2
    exact ⟨u, y, h2, soundW_some hd (h.wf _ h1) (h.typed _ h1) hg⟩

/-! ## The arguments -/

macro "unbind" d:ident "at" h:ident : tactic =>
  `(tactic| simp only [$d:ident, Option.bind_eq_bind, Option.bind_eq_some_iff, Option.pure_def,
    Option.some.injEq] at $h:ident)

theorem soundW_allowance : SoundW desAllowance mAllowance := by
  intro t v x hw ht ha hg
  obtain ⟨s, h⟩ := taken_struct hw ht ha
  unbind desAllowance at hg
  obtain ⟨x0, g0, x1, g1, rfl⟩ := hg
  exact ⟨s, h.record, h.has sound_account.wf rfl g0 (.head _),
    h.has sound_account.wf rfl g1 (.tail _ (.head _))⟩

theorem soundW_range : SoundW desRange mRange := by
  intro t v x hw ht ha hg
  obtain ⟨s, h⟩ := taken_struct hw ht ha
  unbind desRange at hg
  obtain ⟨x0, g0, x1, g1, rfl⟩ := hg
  exact ⟨s, h.record, h.has sound_nat.wf rfl g0 (.head _),
    h.has sound_nat.wf rfl g1 (.tail _ (.head _))⟩

theorem soundW_getAllowances : SoundW desGetAllowances mGetAllowances := by
  intro t v x hw ht ha hg
  obtain ⟨s, h⟩ := taken_struct hw ht ha
  unbind desGetAllowances at hg
  obtain ⟨x0, g0, x1, g1, x2, g2, rfl⟩ := hg
  exact ⟨s, h.record, h.says sound_account.wf g0, h.says sound_account.wf g1, h.says sound_nat.wf g2⟩

theorem soundW_balance : SoundW desBalance mBalance := by
  intro t v x hw ht ha hg
  obtain ⟨s, h⟩ := taken_record hw ht ha
  unbind desBalance at hg
  obtain ⟨x0, g0, x1, g1, rfl⟩ := hg
  obtain ⟨u, y, h1, h2⟩ := h.hasAt sound_u128.wf rfl (.tail _ (.head _)) g1
  exact ⟨s, h.record, h.hasAt sound_account.wf rfl (.head _) g0, ⟨u, y, h1, h2.1⟩⟩

theorem soundW_config : SoundW desConfig mConfig := by
  intro t v x hw ht ha hg
  obtain ⟨s, h⟩ := taken_struct hw ht ha
  unbind desConfig at hg
  obtain ⟨x0, g0, x1, g1, x2, g2, rfl⟩ := hg
  exact ⟨s, h.record, ⟨x0, rfl, h.has sound_u64.wf rfl g0 (.head _)⟩,
    h.says sound_principal.wf g1, h.says (soundW_vec soundW_balance) g2⟩

theorem soundW_change : SoundW desChange mChange := by
  intro t v x hw ht ha hg
  simp only [desChange] at hg
  cases hc : theCase t v with
  | none => rw [hc] at hg; cases hg
  | some c =>
    obtain ⟨l, u, y⟩ := c
    rw [hc] at hg
    obtain ⟨_, w2, w3⟩ := case_accepted hw ht ha hc
    simp only at hg
    split at hg
    · rename_i hl
      subst hl; cases hg
      exact ⟨u, y, isCase_of hc⟩
    · split at hg
      · rename_i hl
        rw [Option.map_eq_some_iff] at hg
        obtain ⟨p, hg, rfl⟩ := hg
        subst hl
        exact ⟨u, y, isCase_of hc, sound_principal u y p w2 (w3 _ (.tail _ (.head _)) rfl) hg⟩
      · cases hg

theorem soundW_upgrade : SoundW desUpgrade mUpgrade := by
  intro t v x hw ht ha hg
  obtain ⟨s, h⟩ := taken_struct hw ht ha
  unbind desUpgrade at hg
  obtain ⟨x0, g0, x1, g1, rfl⟩ := hg
  exact ⟨s, h.record, h.says sound_u64.wf g0, h.says soundW_change g1⟩

theorem soundW_ledger : SoundW desLedger mLedger := by
  intro t v x hw ht ha hg
  simp only [desLedger] at hg
  cases hc : theCase t v with
  | none => rw [hc] at hg; cases hg
  | some c =>
    obtain ⟨l, u, y⟩ := c
    rw [hc] at hg
    obtain ⟨w1, w2, w3⟩ := case_accepted hw ht ha hc
    simp only at hg
    split at hg
    · rename_i hl
      rw [Option.map_eq_some_iff] at hg
      obtain ⟨p, hg, rfl⟩ := hg
      subst hl
      exact ⟨u, y, isCase_of hc, soundW_config u y p w1 w2 (w3 _ (.head _) rfl) hg⟩
    · split at hg
      · rename_i hl
        rw [Option.map_eq_some_iff] at hg
        obtain ⟨o, hg, rfl⟩ := hg
        subst hl
        cases o with
        | none => exact ⟨u, y, isCase_of hc⟩
        | some a => exact ⟨u, y, isCase_of hc, soundW_some soundW_upgrade w1 w2 hg⟩
      · cases hg

theorem soundW_logVisibility : SoundW desLogVisibility mLogVisibility := by
  intro t v x hw ht ha hg
  simp only [desLogVisibility] at hg
  cases hc : theCase t v with
  | none => rw [hc] at hg; cases hg
  | some c =>
    obtain ⟨l, u, y⟩ := c
    rw [hc] at hg
    obtain ⟨w1, w2, w3⟩ := case_accepted hw ht ha hc
    simp only at hg
    split at hg
    · rename_i hl
      subst hl; cases hg
      exact ⟨u, y, isCase_of hc⟩
    · split at hg
      · rename_i hl
        subst hl; cases hg
        exact ⟨u, y, isCase_of hc⟩
      · split at hg
        · rename_i hl
          rw [Option.map_eq_some_iff] at hg
          obtain ⟨p, hg, rfl⟩ := hg
          subst hl
          exact ⟨u, y, isCase_of hc, soundW_vec sound_principal.wf u y p w1 w2
            (w3 _ (.tail _ (.tail _ (.head _))) rfl) hg⟩
        · cases hg

theorem soundW_variable : SoundW desVariable mVariable := by
  intro t v x hw ht ha hg
  obtain ⟨s, h⟩ := taken_struct hw ht ha
  unbind desVariable at hg
  obtain ⟨x0, g0, x1, g1, rfl⟩ := hg
  exact ⟨s, h.record, h.has sound_text.wf rfl g0 (.head _),
    h.has sound_text.wf rfl g1 (.tail _ (.head _))⟩

theorem soundW_settings : SoundW desSettings mSettings := by
  intro t v x hw ht ha hg
  obtain ⟨s, h⟩ := taken_struct hw ht ha
  unbind desSettings at hg
  obtain ⟨x0, g0, x1, g1, x2, g2, x3, g3, x4, g4, x5, g5, x6, g6, x7, g7, x8, g8, rfl⟩ := hg
  exact ⟨s, h.record, h.says (soundW_vec sound_principal.wf) g0, h.says sound_nat.wf g1,
    h.says sound_nat.wf g2, h.says sound_nat.wf g3, h.says sound_nat.wf g4, h.says sound_nat.wf g6,
    h.says sound_nat.wf g7, h.says soundW_logVisibility g5, h.says (soundW_vec soundW_variable) g8⟩

theorem soundW_filter : SoundW desFilter mFilter := by
  intro t v x hw ht ha hg
  obtain ⟨s, h⟩ := taken_struct hw ht ha
  exact ⟨s, h.record, h.says sound_text.wf hg⟩

theorem soundW_subnet : SoundW desSubnet wSubnet := by
  intro t v x hw ht ha hg
  obtain ⟨s, h⟩ := taken_struct hw ht ha
  exact ⟨s, h.record, h.has sound_principal.wf rfl hg (.head _)⟩

theorem soundW_selection : SoundW desSelection mSelection := by
  intro t v x hw ht ha hg
  simp only [desSelection] at hg
  cases hc : theCase t v with
  | none => rw [hc] at hg; cases hg
  | some c =>
    obtain ⟨l, u, y⟩ := c
    rw [hc] at hg
    obtain ⟨w1, w2, w3⟩ := case_accepted hw ht ha hc
    simp only at hg
    split at hg
    · rename_i hl
      rw [Option.map_eq_some_iff] at hg
      obtain ⟨p, hg, rfl⟩ := hg
      subst hl
      exact ⟨u, y, isCase_of hc, soundW_filter u y p w1 w2 (w3 _ (.head _) rfl) hg⟩
    · split at hg
      · rename_i hl
        rw [Option.map_eq_some_iff] at hg
        obtain ⟨p, hg, rfl⟩ := hg
        subst hl
        exact ⟨u, y, isCase_of hc, soundW_subnet u y p w1 w2 (w3 _ (.tail _ (.head _)) rfl) hg⟩
      · cases hg

theorem soundW_cmcArgs : SoundW desCmcArgs mCmcArgs := by
  intro t v x hw ht ha hg
  obtain ⟨s, h⟩ := taken_struct hw ht ha
  unbind desCmcArgs at hg
  obtain ⟨x0, g0, x1, g1, rfl⟩ := hg
  exact ⟨s, h.record, h.says soundW_settings g1, h.says soundW_selection g0⟩

theorem soundW_create : SoundW desCreate (fun a => mCreation a.creationArgs) := by
  intro t v x hw ht ha hg
  obtain ⟨s, h⟩ := taken_struct hw ht ha
  unbind desCreate at hg
  obtain ⟨x0, g0, x1, g1, x2, g2, x3, g3, rfl⟩ := hg
  exact ⟨s, h.record, h.says soundW_cmcArgs g3⟩

theorem soundW_createFrom : SoundW desCreateFrom (fun a => mCreation a.creationArgs) := by
  intro t v x hw ht ha hg
  obtain ⟨s, h⟩ := taken_struct hw ht ha
  unbind desCreateFrom at hg
  obtain ⟨x0, g0, x1, g1, x2, g2, x3, g3, x4, g4, rfl⟩ := hg
  exact ⟨s, h.record, h.says soundW_cmcArgs g4⟩

theorem decode_soundW {A : Type} {d : Des A} {w : Way A} (h : SoundW d w) (hm : d.missing = none)
    {bs : Bytes} {args : List (Ty × Val)} {x : A} (hb : IsMessage bs args)
    (hd : decode d bs = some x) : ∃ t v more, args = (t, v) :: more ∧ w x t v := by
  simp only [decode, readMessage_isMessage hb] at hd
  cases args with
  | nil => simp only [hm] at hd; cases hd
  | cons a more =>
    obtain ⟨t, v⟩ := a
    refine ⟨t, v, more, rfl, ?_⟩
    simp only at hd
    split at hd
    · rename_i ha
      exact h t v x (sorted_first hb) (typed_first hb) ha hd
    · cases hd

theorem decode_soundOpt {A : Type} {d : Des A} {w : Way A} (h : SoundW d w)
    {bs : Bytes} {args : List (Ty × Val)} {x : A} (hb : IsMessage bs args)
    (hd : decode (desOpt d) bs = some (some x)) :
    ∃ t v more, args = (t, v) :: more ∧ wOpt w (some x) t v := by
  simp only [decode, readMessage_isMessage hb] at hd
  cases args with
  | nil => cases hd
  | cons a more =>
    obtain ⟨t, v⟩ := a
    refine ⟨t, v, more, rfl, ?_⟩
    simp only at hd
    split at hd
    · exact soundW_some h (sorted_first hb) (typed_first hb) hd
    · cases hd

end CyclesLedger.Candid
