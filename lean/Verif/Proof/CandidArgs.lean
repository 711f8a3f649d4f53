import Verif.Proof.Candid
/-! # The arguments of the endpoints are read as they are written -/
namespace CyclesLedger.Candid
open CyclesLedger.Spec.Candid

theorem foldl_label (cs : List Char) (h : Nat) :
    cs.foldl (fun h c => (h * 223 + c.toNat) % 4294967296) h % 4294967296 =
      (h * 223 ^ cs.length + digits223 cs) % 4294967296 := by
  induction cs generalizing h with
  | nil => simp [digits223]
  | cons c cs ih =>
    rw [List.foldl_cons, ih, digits223, List.length_cons, Nat.pow_succ]
    rw [Nat.add_mod, Nat.mul_mod, Nat.mod_mod, ← Nat.mul_mod, ← Nat.add_mod]
    congr 1
    rw [Nat.add_mul, Nat.mul_comm (223 ^ cs.length) 223, Nat.mul_assoc, Nat.add_assoc]

theorem foldl_label_lt (cs : List Char) (h : Nat) (hh : h < 4294967296) :
    cs.foldl (fun h c => (h * 223 + c.toNat) % 4294967296) h < 4294967296 := by
  induction cs generalizing h with
  | nil => exact hh
  | cons c cs ih => exact ih _ (Nat.mod_lt _ (by decide))

theorem label_eq (name : String) : label name = nameHash name := by
  have h1 := foldl_label name.toList 0
  have h2 := foldl_label_lt name.toList 0 (by decide)
  rw [Nat.mod_eq_of_lt h2] at h1
  unfold label nameHash
  rw [h1, Nat.zero_mul, Nat.zero_add]

/-! ## Reading what is written -/

/-- What is written one of the ways of `w` is accepted and read by `d`. -/
def Reads {A : Type} (d : Des A) (w : Way A) : Prop :=
  ∀ x t v, w x t v → accepts d.ty t = true ∧ d.get t v = some x

/-- Not written as something optional. -/
def Plain {A : Type} (w : Way A) : Prop := ∀ x t v, w x t v → t.optional = false

theorem Reads.fits {A : Type} {d : Des A} {w : Way A} (h : Reads d w) {t : Ty} (hf : Fits w t) :
    accepts d.ty t = true := by
  obtain ⟨x, v, hw⟩ := hf
  exact (h x t v hw).1

theorem reads_nat : Reads desNat wNat := by
  rintro x t v ⟨rfl, rfl⟩; exact ⟨rfl, rfl⟩
theorem plain_nat : Plain wNat := by rintro x t v ⟨rfl, rfl⟩; rfl

theorem reads_text : Reads desText wText := by
  rintro x t v ⟨rfl, rfl⟩; exact ⟨rfl, rfl⟩
theorem plain_text : Plain wText := by rintro x t v ⟨rfl, rfl⟩; rfl

theorem reads_principal : Reads desPrincipal wPrincipal := by
  rintro x t v ⟨rfl, rfl⟩
  refine ⟨rfl, ?_⟩
  simp only [desPrincipal]
  rw [dif_pos x.le]
theorem plain_principal : Plain wPrincipal := by rintro x t v ⟨rfl, rfl⟩; rfl

theorem ofLE_le (k n : Nat) (h : n < 256 ^ k) : ofLE (le k n) = n := by
  induction k generalizing n with
  | zero => simp at h; subst h; rfl
  | succ k ih =>
    simp only [le, ofLE]
    rw [ih (n / 256) (by rw [Nat.pow_succ] at h; omega), UInt8.toNat_ofNat']
    omega

theorem reads_u64 : Reads desU64 wU64 := by
  rintro x t v ⟨rfl, rfl⟩
  refine ⟨rfl, ?_⟩
  simp only [desU64]
  rw [ofLE_le 8 x.toNat (by have := x.toNat_lt; omega), UInt64.ofNat_toNat]
theorem plain_u64 : Plain wU64 := by rintro x t v ⟨rfl, rfl⟩; rfl

theorem bytes_ofList (bs : Bytes) : (Vals.ofList (bs.map (fun b => Val.fixed [b]))).bytes = some bs := by
  induction bs with
  | nil => rfl
  | cons b bs ih => simp only [List.map_cons, Vals.ofList, Vals.bytes, ih, Option.map_some]

theorem reads_blob : Reads desBlob wBlob := by
  rintro x t v ⟨rfl | ⟨rfl, _⟩, rfl⟩ <;> exact ⟨rfl, bytes_ofList x⟩
theorem plain_blob : Plain wBlob := by rintro x t v ⟨rfl | ⟨rfl, _⟩, rfl⟩ <;> rfl

theorem reads_subaccount : Reads desSubaccount wSubaccount := by
  rintro x t v h
  have := reads_blob _ _ _ h
  refine ⟨this.1, ?_⟩
  simp only [desSubaccount, this.2]
  rw [dif_pos x.property]
theorem plain_subaccount : Plain wSubaccount := fun _ _ _ h => plain_blob _ _ _ h

theorem desOpt_plain {A : Type} (d : Des A) {t : Ty} (h : t.optional = false) (v : Val) :
    (desOpt d).get t v = desSome d t v := by
  cases t <;> first | rfl | cases h

theorem reads_opt {A : Type} {d : Des A} {w : Way A} (h : Reads d w) (hp : Plain w) :
    Reads (desOpt d) (wOpt w) := by
  rintro o t v (⟨rfl, rfl | rfl | ⟨⟨u, rfl⟩, rfl⟩⟩ | ⟨x, u, y, rfl, rfl, rfl, hw⟩ | ⟨x, rfl, hw⟩)
  · exact ⟨rfl, rfl⟩
  · exact ⟨rfl, rfl⟩
  · exact ⟨rfl, rfl⟩
  · obtain ⟨h1, h2⟩ := h x u y hw
    refine ⟨rfl, ?_⟩
    simp only [desOpt, desSome, h1, h2, if_true, Option.map_some]
  · obtain ⟨h1, h2⟩ := h x t v hw
    refine ⟨rfl, ?_⟩
    rw [desOpt_plain d (hp x t v hw)]
    simp only [desSome, h1, h2, if_true, Option.map_some]

theorem allSome_each {A : Type} {d : Des A} {w : Way A} (h : Reads d w) (t : Ty) :
    ∀ (as : List A) (vs : List Val), Each w t as vs → allSome (d.get t) vs = some as
  | [], vs, he => by simp only [Each] at he; subst he; rfl
  | a :: as, vs, he => by
    simp only [Each] at he
    obtain ⟨x, xs, rfl, hx, hxs⟩ := he
    simp only [allSome, (h a t x hx).2, allSome_each h t as xs hxs, Option.map_some]

theorem reads_vec {A : Type} {d : Des A} {w : Way A} (h : Reads d w) :
    Reads (desVec d) (wVec w) := by
  rintro as t v ⟨u, xs, rfl, rfl, hf, he⟩
  refine ⟨?_, ?_⟩
  · simp only [desVec, accepts]; exact h.fits hf
  · simp only [desVec, toList_ofList]; exact allSome_each h u as xs he
theorem plain_vec {A : Type} (w : Way A) : Plain (wVec w) := by
  rintro as t v ⟨u, xs, rfl, _⟩; rfl

/-! ## Records -/

theorem find_types {s : List (Nat × Ty × Val)} (hs : s.Pairwise (fun a b => a.1 < b.1)) {l : Nat}
    {t : Ty} {v : Val} (h : (l, t, v) ∈ s) :
    (Fields.ofList (s.map (fun f => (f.1, f.2.1)))).find l = some t ∧
      findField l (Fields.ofList (s.map (fun f => (f.1, f.2.1))))
        (Vals.ofList (s.map (fun f => f.2.2))) = some (t, v) := by
  induction s with
  | nil => cases h
  | cons f s ih =>
    have hs' := List.pairwise_cons.mp hs
    simp only [List.map_cons, Fields.ofList, Vals.ofList, Fields.find, findField]
    rcases List.mem_cons.mp h with rfl | hm
    · simp
    · have := hs'.1 _ hm
      simp only at this
      rw [if_neg (by omega), if_neg (by omega)]
      exact ih hs'.2 hm

theorem find_lacks {s : List (Nat × Ty × Val)} {l : Nat} (h : ∀ f ∈ s, f.1 ≠ l) :
    (Fields.ofList (s.map (fun f => (f.1, f.2.1)))).find l = none ∧
      findField l (Fields.ofList (s.map (fun f => (f.1, f.2.1))))
        (Vals.ofList (s.map (fun f => f.2.2))) = none := by
  induction s with
  | nil => exact ⟨rfl, rfl⟩
  | cons f s ih =>
    simp only [List.map_cons, Fields.ofList, Vals.ofList, Fields.find, findField]
    have := h f List.mem_cons_self
    rw [if_neg (fun e => this e.symm), if_neg (fun e => this e.symm)]
    exact ih (fun g hg => h g (List.mem_cons_of_mem _ hg))

/-- The field expected at a label is there with a type that is accepted, or may be left out. -/
def Meets (w : Ty) (l : Nat) (t : Ty) : Prop :=
  ∃ gs, w = .record gs ∧
    (match gs.find l with
      | some u => accepts t u
      | none => t.optional) = true

theorem acceptsRecord_iff (L : List (Nat × Ty)) (gs : Fields) :
    acceptsRecord (Fields.ofList L) gs = true ↔
      ∀ f ∈ L, (match gs.find f.1 with
        | some u => accepts f.2 u
        | none => f.2.optional) = true := by
  induction L with
  | nil => simp [Fields.ofList, acceptsRecord]
  | cons f L ih =>
    obtain ⟨l, t⟩ := f
    simp only [Fields.ofList, acceptsRecord, Bool.and_eq_true, ih, List.mem_cons, forall_eq_or_imp]
    exact Iff.rfl

theorem accepts_fields {L : List (Nat × Ty)} {w : Ty} {s : List (Nat × Ty × Val)} {v : Val}
    (hr : Record s w v) (h : ∀ f ∈ L, Meets w f.1 f.2) :
    accepts (.record (Fields.ofList L)) w = true := by
  obtain ⟨_, rfl, _⟩ := hr
  simp only [accepts]
  rw [acceptsRecord_iff]
  intro f hf
  obtain ⟨gs, he, hm⟩ := h f hf
  cases he
  exact hm

theorem accepts_struct {L : List (String × Ty)} {w : Ty} {s : List (Nat × Ty × Val)} {v : Val}
    (hr : Record s w v) (h : ∀ f ∈ L, Meets w (label f.1) f.2) : accepts (struct L) w = true := by
  apply accepts_fields hr
  intro f hf
  obtain ⟨g, hg, rfl⟩ := List.mem_map.mp hf
  exact h g hg

theorem reads_at {A : Type} {d : Des A} {w : Way A} (hd : Reads d w) {s : List (Nat × Ty × Val)}
    {t : Ty} {v : Val} (hr : Record s t v) {l : Nat} {x : A} (h : HasAt w s l x) :
    Meets t l d.ty ∧ fieldAt d l t v = some x := by
  obtain ⟨hs, rfl, rfl⟩ := hr
  obtain ⟨u, y, hm, hw⟩ := h
  obtain ⟨h1, h2⟩ := find_types hs hm
  obtain ⟨h3, h4⟩ := hd x u y hw
  constructor
  · refine ⟨_, rfl, ?_⟩
    rw [h1]; exact h3
  · simp only [fieldAt, h2]; exact h4

theorem reads_has {A : Type} {d : Des A} {w : Way A} (hd : Reads d w) {s : List (Nat × Ty × Val)}
    {t : Ty} {v : Val} (hr : Record s t v) {name : String} {x : A} (h : Has w s name x) :
    Meets t (label name) d.ty ∧ field d name t v = some x := by
  unfold field
  rw [label_eq]
  exact reads_at hd hr h

theorem reads_hasOpt {A : Type} {d : Des A} {w : Way A} (hd : Reads d w) (hp : Plain w)
    {s : List (Nat × Ty × Val)} {t : Ty} {v : Val} (hr : Record s t v) {name : String}
    {o : Option A} (h : HasOpt w s name o) :
    Meets t (label name) (desOpt d).ty ∧ field (desOpt d) name t v = some o := by
  rcases h with h | ⟨rfl, hl⟩
  · exact reads_has (reads_opt hd hp) hr h
  · unfold field
    rw [label_eq]
    obtain ⟨_, rfl, rfl⟩ := hr
    obtain ⟨h1, h2⟩ := find_lacks hl
    constructor
    · refine ⟨_, rfl, ?_⟩
      rw [h1]; rfl
    · simp only [fieldAt, h2]; rfl

theorem record_plain {s : List (Nat × Ty × Val)} {t : Ty} {v : Val} (h : Record s t v) :
    t.optional = false := by
  obtain ⟨_, rfl, _⟩ := h; rfl

/-! ## Variants -/

theorem get?_ofList (cs : List (Nat × Ty)) (i : Nat) : (Fields.ofList cs).get? i = cs[i]? := by
  induction cs generalizing i with
  | nil => rfl
  | cons c cs ih =>
    cases i with
    | zero => rfl
    | succ i => simp only [Fields.ofList, Fields.get?, ih, List.getElem?_cons_succ]

theorem find_mem {cs : List (Nat × Ty)} {l : Nat} {u : Ty}
    (h : (Fields.ofList cs).find l = some u) : (l, u) ∈ cs := by
  induction cs with
  | nil => cases h
  | cons c cs ih =>
    obtain ⟨k, t⟩ := c
    simp only [Fields.ofList, Fields.find] at h
    split at h
    · cases h; rename_i e; subst e; exact List.mem_cons_self
    · exact List.mem_cons_of_mem _ (ih h)

theorem find_isSome {cs : List (Nat × Ty)} {c : Nat × Ty} (h : c ∈ cs) :
    ((Fields.ofList cs).find c.1).isSome = true := by
  induction cs with
  | nil => cases h
  | cons d cs ih =>
    obtain ⟨k, t⟩ := d
    simp only [Fields.ofList, Fields.find]
    split
    · rfl
    · rename_i hne
      rcases List.mem_cons.mp h with rfl | hm
      · exact absurd rfl hne
      · exact ih hm

theorem within_iff (cs : List (Nat × Ty)) (gs : Fields) :
    (Fields.ofList cs).within gs = true ↔ ∀ c ∈ cs, (gs.find c.1).isSome = true := by
  induction cs with
  | nil => simp [Fields.ofList, Fields.within]
  | cons c cs ih =>
    obtain ⟨l, t⟩ := c
    simp only [Fields.ofList, Fields.within, Bool.and_eq_true, ih, List.mem_cons, forall_eq_or_imp]

theorem acceptsCases_iff (L : List (Nat × Ty)) (gs : Fields) :
    acceptsCases (Fields.ofList L) gs = true ↔
      ∀ f ∈ L, ∀ u, gs.find f.1 = some u → accepts f.2 u = true := by
  induction L with
  | nil => simp [Fields.ofList, acceptsCases]
  | cons f L ih =>
    obtain ⟨l, t⟩ := f
    simp only [Fields.ofList, acceptsCases, Bool.and_eq_true, ih, List.mem_cons, forall_eq_or_imp]
    constructor
    · rintro ⟨h1, h2⟩
      refine ⟨fun u hu => ?_, h2⟩
      rw [hu] at h1; exact h1
    · rintro ⟨h1, h2⟩
      refine ⟨?_, h2⟩
      cases hf : gs.find l with
      | none => rfl
      | some u => exact h1 u hf

theorem reads_case {known : List (String × (Ty → Prop))} {name : String} {u : Ty} {x : Val} {t : Ty}
    {v : Val} (h : Case known name u x t v) {L : List (String × Ty)}
    (h1 : ∀ k ∈ known, k.1 ∈ L.map Prod.fst)
    (h2 : ∀ k ∈ known, ∀ f ∈ L, nameHash k.1 = nameHash f.1 → ∀ u, k.2 u → accepts f.2 u = true) :
    accepts (enum L) t = true ∧ theCase t v = some (nameHash name, u, x) := by
  obtain ⟨cs, i, rfl, _, hk, hi, rfl⟩ := h
  constructor
  · simp only [enum, accepts, Bool.and_eq_true]
    refine ⟨(within_iff _ _).mpr ?_, (acceptsCases_iff _ _).mpr ?_⟩
    · intro c hc
      obtain ⟨k, hkm, hl, _⟩ := hk c hc
      obtain ⟨f, hf, he⟩ := List.mem_map.mp (h1 k hkm)
      rw [hl, ← he, ← label_eq]
      exact find_isSome (c := (label f.1, f.2)) (List.mem_map.mpr ⟨f, hf, rfl⟩)
    · intro f hf u hu
      obtain ⟨g, hg, rfl⟩ := List.mem_map.mp hf
      obtain ⟨k, hkm, hl, hku⟩ := hk _ (find_mem hu)
      simp only at hl hku ⊢
      rw [label_eq] at hl
      exact h2 k hkm g hg hl.symm u hku
  · simp only [theCase, get?_ofList, hi, Option.map_some]

theorem case_plain {known : List (String × (Ty → Prop))} {name : String} {u : Ty} {x : Val} {t : Ty}
    {v : Val} (h : Case known name u x t v) : t.optional = false := by
  obtain ⟨cs, i, rfl, _⟩ := h; rfl

/-! ## The arguments -/

theorem reads_account : Reads desAccount wAccount := by
  rintro a t v ⟨s, hr, h0, h1⟩
  obtain ⟨a0, b0⟩ := reads_has reads_principal hr h0
  obtain ⟨a1, b1⟩ := reads_hasOpt reads_subaccount plain_subaccount hr h1
  refine ⟨accepts_struct hr ?_, ?_⟩
  · simp only [List.mem_cons, List.not_mem_nil, or_false]
    rintro f (rfl | rfl)
    · exact a0
    · exact a1
  · simp only [desAccount, b0, b1, Option.bind_eq_bind, Option.bind_some, Option.pure_def]
theorem plain_account : Plain wAccount := by rintro a t v ⟨s, hr, _⟩; exact record_plain hr

theorem reads_allowance : Reads desAllowance wAllowance := by
  rintro a t v ⟨s, hr, h0, h1⟩
  obtain ⟨a0, b0⟩ := reads_has reads_account hr h0
  obtain ⟨a1, b1⟩ := reads_has reads_account hr h1
  refine ⟨accepts_struct hr ?_, ?_⟩
  · simp only [List.mem_cons, List.not_mem_nil, or_false]
    rintro f (rfl | rfl)
    · exact a0
    · exact a1
  · simp only [desAllowance, b0, b1, Option.bind_eq_bind, Option.bind_some, Option.pure_def]
theorem plain_allowance : Plain wAllowance := by rintro a t v ⟨s, hr, _⟩; exact record_plain hr

theorem reads_approve : Reads desApprove wApprove := by
  rintro a t v ⟨s, hr, h0, h1, h2, h3, h4, h5, h6, h7⟩
  obtain ⟨a0, b0⟩ := reads_hasOpt reads_subaccount plain_subaccount hr h0
  obtain ⟨a1, b1⟩ := reads_has reads_account hr h1
  obtain ⟨a2, b2⟩ := reads_has reads_nat hr h2
  obtain ⟨a3, b3⟩ := reads_hasOpt reads_nat plain_nat hr h3
  obtain ⟨a4, b4⟩ := reads_hasOpt reads_u64 plain_u64 hr h4
  obtain ⟨a5, b5⟩ := reads_hasOpt reads_nat plain_nat hr h5
  obtain ⟨a6, b6⟩ := reads_hasOpt reads_blob plain_blob hr h6
  obtain ⟨a7, b7⟩ := reads_hasOpt reads_u64 plain_u64 hr h7
  refine ⟨accepts_struct hr ?_, ?_⟩
  · simp only [List.mem_cons, List.not_mem_nil, or_false]
    rintro f (rfl | rfl | rfl | rfl | rfl | rfl | rfl | rfl)
    · exact a0
    · exact a1
    · exact a2
    · exact a3
    · exact a4
    · exact a5
    · exact a6
    · exact a7
  · simp only [desApprove, b0, b1, b2, b3, b4, b5, b6, b7, Option.bind_eq_bind, Option.bind_some, Option.pure_def]
theorem plain_approve : Plain wApprove := by rintro a t v ⟨s, hr, _⟩; exact record_plain hr

theorem reads_deposit : Reads desDeposit wDeposit := by
  rintro a t v ⟨s, hr, h0, h1⟩
  obtain ⟨a0, b0⟩ := reads_has reads_account hr h0
  obtain ⟨a1, b1⟩ := reads_hasOpt reads_blob plain_blob hr h1
  refine ⟨accepts_struct hr ?_, ?_⟩
  · simp only [List.mem_cons, List.not_mem_nil, or_false]
    rintro f (rfl | rfl)
    · exact a0
    · exact a1
  · simp only [desDeposit, b0, b1, Option.bind_eq_bind, Option.bind_some, Option.pure_def]
theorem plain_deposit : Plain wDeposit := by rintro a t v ⟨s, hr, _⟩; exact record_plain hr

theorem reads_withdraw : Reads desWithdraw wWithdraw := by
  rintro a t v ⟨s, hr, h0, h1, h2, h3⟩
  obtain ⟨a0, b0⟩ := reads_has reads_nat hr h0
  obtain ⟨a1, b1⟩ := reads_hasOpt reads_subaccount plain_subaccount hr h1
  obtain ⟨a2, b2⟩ := reads_has reads_principal hr h2
  obtain ⟨a3, b3⟩ := reads_hasOpt reads_u64 plain_u64 hr h3
  refine ⟨accepts_struct hr ?_, ?_⟩
  · simp only [List.mem_cons, List.not_mem_nil, or_false]
    rintro f (rfl | rfl | rfl | rfl)
    · exact a1
    · exact a2
    · exact a3
    · exact a0
  · simp only [desWithdraw, b0, b1, b2, b3, Option.bind_eq_bind, Option.bind_some, Option.pure_def]
theorem plain_withdraw : Plain wWithdraw := by rintro a t v ⟨s, hr, _⟩; exact record_plain hr

theorem reads_withdrawFrom : Reads desWithdrawFrom wWithdrawFrom := by
  rintro a t v ⟨s, hr, h0, h1, h2, h3, h4⟩
  obtain ⟨a0, b0⟩ := reads_hasOpt reads_subaccount plain_subaccount hr h0
  obtain ⟨a1, b1⟩ := reads_has reads_account hr h1
  obtain ⟨a2, b2⟩ := reads_has reads_principal hr h2
  obtain ⟨a3, b3⟩ := reads_has reads_nat hr h3
  obtain ⟨a4, b4⟩ := reads_hasOpt reads_u64 plain_u64 hr h4
  refine ⟨accepts_struct hr ?_, ?_⟩
  · simp only [List.mem_cons, List.not_mem_nil, or_false]
    rintro f (rfl | rfl | rfl | rfl | rfl)
    · exact a0
    · exact a1
    · exact a2
    · exact a4
    · exact a3
  · simp only [desWithdrawFrom, b0, b1, b2, b3, b4, Option.bind_eq_bind, Option.bind_some, Option.pure_def]
theorem plain_withdrawFrom : Plain wWithdrawFrom := by rintro a t v ⟨s, hr, _⟩; exact record_plain hr

theorem reads_transfer : Reads desTransfer wTransfer := by
  rintro a t v ⟨s, hr, h0, h1, h2, h3, h4, h5⟩
  obtain ⟨a0, b0⟩ := reads_hasOpt reads_subaccount plain_subaccount hr h0
  obtain ⟨a1, b1⟩ := reads_has reads_account hr h1
  obtain ⟨a2, b2⟩ := reads_has reads_nat hr h2
  obtain ⟨a3, b3⟩ := reads_hasOpt reads_nat plain_nat hr h3
  obtain ⟨a4, b4⟩ := reads_hasOpt reads_blob plain_blob hr h4
  obtain ⟨a5, b5⟩ := reads_hasOpt reads_u64 plain_u64 hr h5
  refine ⟨accepts_struct hr ?_, ?_⟩
  · simp only [List.mem_cons, List.not_mem_nil, or_false]
    rintro f (rfl | rfl | rfl | rfl | rfl | rfl)
    · exact a0
    · exact a1
    · exact a3
    · exact a5
    · exact a4
    · exact a2
  · simp only [desTransfer, b0, b1, b2, b3, b4, b5, Option.bind_eq_bind, Option.bind_some, Option.pure_def]
theorem plain_transfer : Plain wTransfer := by rintro a t v ⟨s, hr, _⟩; exact record_plain hr

theorem reads_transferFrom : Reads desTransferFrom wTransferFrom := by
  rintro a t v ⟨s, hr, h0, h1, h2, h3, h4, h5, h6⟩
  obtain ⟨a0, b0⟩ := reads_hasOpt reads_subaccount plain_subaccount hr h0
  obtain ⟨a1, b1⟩ := reads_has reads_account hr h1
  obtain ⟨a2, b2⟩ := reads_has reads_account hr h2
  obtain ⟨a3, b3⟩ := reads_has reads_nat hr h3
  obtain ⟨a4, b4⟩ := reads_hasOpt reads_nat plain_nat hr h4
  obtain ⟨a5, b5⟩ := reads_hasOpt reads_blob plain_blob hr h5
  obtain ⟨a6, b6⟩ := reads_hasOpt reads_u64 plain_u64 hr h6
  refine ⟨accepts_struct hr ?_, ?_⟩
  · simp only [List.mem_cons, List.not_mem_nil, or_false]
    rintro f (rfl | rfl | rfl | rfl | rfl | rfl | rfl)
    · exact a0
    · exact a1
    · exact a2
    · exact a3
    · exact a4
    · exact a5
    · exact a6
  · simp only [desTransferFrom, b0, b1, b2, b3, b4, b5, b6, Option.bind_eq_bind, Option.bind_some, Option.pure_def]
theorem plain_transferFrom : Plain wTransferFrom := by rintro a t v ⟨s, hr, _⟩; exact record_plain hr

theorem reads_range : Reads desRange wRange := by
  rintro a t v ⟨s, hr, h0, h1⟩
  obtain ⟨a0, b0⟩ := reads_has reads_nat hr h0
  obtain ⟨a1, b1⟩ := reads_has reads_nat hr h1
  refine ⟨accepts_struct hr ?_, ?_⟩
  · simp only [List.mem_cons, List.not_mem_nil, or_false]
    rintro f (rfl | rfl)
    · exact a0
    · exact a1
  · simp only [desRange, b0, b1, Option.bind_eq_bind, Option.bind_some, Option.pure_def]
theorem plain_range : Plain wRange := by rintro a t v ⟨s, hr, _⟩; exact record_plain hr

theorem reads_getAllowances : Reads desGetAllowances wGetAllowances := by
  rintro a t v ⟨s, hr, h0, h1, h2⟩
  obtain ⟨a0, b0⟩ := reads_hasOpt reads_account plain_account hr h0
  obtain ⟨a1, b1⟩ := reads_hasOpt reads_account plain_account hr h1
  obtain ⟨a2, b2⟩ := reads_hasOpt reads_nat plain_nat hr h2
  refine ⟨accepts_struct hr ?_, ?_⟩
  · simp only [List.mem_cons, List.not_mem_nil, or_false]
    rintro f (rfl | rfl | rfl)
    · exact a0
    · exact a1
    · exact a2
  · simp only [desGetAllowances, b0, b1, b2, Option.bind_eq_bind, Option.bind_some, Option.pure_def]
theorem plain_getAllowances : Plain wGetAllowances := by rintro a t v ⟨s, hr, _⟩; exact record_plain hr

theorem reads_variable : Reads desVariable wVariable := by
  rintro a t v ⟨s, hr, h0, h1⟩
  obtain ⟨a0, b0⟩ := reads_has reads_text hr h0
  obtain ⟨a1, b1⟩ := reads_has reads_text hr h1
  refine ⟨accepts_struct hr ?_, ?_⟩
  · simp only [List.mem_cons, List.not_mem_nil, or_false]
    rintro f (rfl | rfl)
    · exact a0
    · exact a1
  · simp only [desVariable, b0, b1, Option.bind_eq_bind, Option.bind_some, Option.pure_def]
theorem plain_variable : Plain wVariable := by rintro a t v ⟨s, hr, _⟩; exact record_plain hr

theorem reads_balance : Reads desBalance wBalance := by
  rintro a t v ⟨s, hr, h0, h1, h2⟩
  have hn : Reads desU128 (fun n t v => wNat n t v ∧ n < 2 ^ 128) := by
    rintro x t v ⟨⟨rfl, rfl⟩, hx⟩
    refine ⟨rfl, ?_⟩
    simp only [desU128, toU128]
    rw [if_pos (by rw [U128MAX_eq]; omega)]
  obtain ⟨a0, b0⟩ := reads_at reads_account hr h0
  obtain ⟨u, y, hm, hw⟩ := h1
  obtain ⟨a1, b1⟩ := reads_at hn hr (x := a.2) ⟨u, y, hm, hw, h2⟩
  refine ⟨accepts_fields hr ?_, ?_⟩
  · simp only [List.mem_cons, List.not_mem_nil, or_false]
    rintro f (rfl | rfl)
    · exact a0
    · exact a1
  · simp only [desBalance, b0, b1, Option.bind_eq_bind, Option.bind_some, Option.pure_def]
theorem plain_balance : Plain wBalance := by rintro a t v ⟨s, hr, _⟩; exact record_plain hr

theorem reads_config : Reads desConfig wConfig := by
  rintro a t v ⟨s, hr, ⟨n, hn, h0⟩, h1, h2⟩
  obtain ⟨a0, b0⟩ := reads_has reads_u64 hr h0
  obtain ⟨a1, b1⟩ := reads_hasOpt reads_principal plain_principal hr h1
  obtain ⟨a2, b2⟩ := reads_hasOpt (reads_vec reads_balance) (plain_vec _) hr h2
  refine ⟨accepts_struct hr ?_, ?_⟩
  · simp only [List.mem_cons, List.not_mem_nil, or_false]
    rintro f (rfl | rfl | rfl)
    · exact a0
    · exact a1
    · exact a2
  · simp only [desConfig, b0, b1, b2, Option.bind_eq_bind, Option.bind_some, Option.pure_def, hn]
theorem plain_config : Plain wConfig := by rintro a t v ⟨s, hr, _⟩; exact record_plain hr

theorem accepts_null {t : Ty} (h : IsNull t) : accepts .null t = true := by cases h; rfl

theorem change_case {name : String} {u : Ty} {x : Val} {t : Ty} {v : Val}
    (h : Case [("Unset", IsNull), ("SetTo", Fits wPrincipal)] name u x t v) :
    accepts desChange.ty t = true ∧ theCase t v = some (nameHash name, u, x) := by
  apply reads_case h
  · simp only [List.mem_cons, List.not_mem_nil, or_false, List.map_cons, List.map_nil]
    rintro k (rfl | rfl) <;> simp
  · simp only [List.mem_cons, List.not_mem_nil, or_false]
    rintro k (rfl | rfl) f (rfl | rfl) he u hu
    · exact accepts_null hu
    · exact absurd he (by decide +kernel)
    · exact absurd he (by decide +kernel)
    · exact reads_principal.fits hu
theorem plain_change : Plain wChange := by
  rintro a t v h
  cases a <;> simp only [wChange] at h
  · exact case_plain h
  · obtain ⟨u, x, h, _⟩ := h; exact case_plain h
theorem reads_change : Reads desChange wChange := by
  rintro a t v h
  cases a <;> simp only [wChange] at h
  · obtain ⟨h1, h2⟩ := change_case h
    refine ⟨h1, ?_⟩
    simp only [desChange, h2, label_eq]
    rw [if_pos trivial]
  · obtain ⟨u, x, h, hx⟩ := h
    obtain ⟨h1, h2⟩ := change_case h
    refine ⟨h1, ?_⟩
    simp only [desChange, h2, label_eq, (reads_principal _ _ _ hx).2, Option.map_some]
    rw [if_neg (by decide +kernel), if_pos trivial]

theorem reads_upgrade : Reads desUpgrade wUpgrade := by
  rintro a t v ⟨s, hr, h0, h1⟩
  obtain ⟨a0, b0⟩ := reads_hasOpt reads_u64 plain_u64 hr h0
  obtain ⟨a1, b1⟩ := reads_hasOpt reads_change plain_change hr h1
  refine ⟨accepts_struct hr ?_, ?_⟩
  · simp only [List.mem_cons, List.not_mem_nil, or_false]
    rintro f (rfl | rfl)
    · exact a0
    · exact a1
  · simp only [desUpgrade, b0, b1, Option.bind_eq_bind, Option.bind_some, Option.pure_def]
theorem plain_upgrade : Plain wUpgrade := by rintro a t v ⟨s, hr, _⟩; exact record_plain hr

theorem ledger_case {name : String} {u : Ty} {x : Val} {t : Ty} {v : Val}
    (h : Case [("Init", Fits wConfig), ("Upgrade", Fits (wOpt wUpgrade))] name u x t v) :
    accepts desLedger.ty t = true ∧ theCase t v = some (nameHash name, u, x) := by
  apply reads_case h
  · simp only [List.mem_cons, List.not_mem_nil, or_false, List.map_cons, List.map_nil]
    rintro k (rfl | rfl) <;> simp
  · simp only [List.mem_cons, List.not_mem_nil, or_false]
    rintro k (rfl | rfl) f (rfl | rfl) he u hu
    · exact reads_config.fits hu
    · exact absurd he (by decide +kernel)
    · exact absurd he (by decide +kernel)
    · exact (reads_opt reads_upgrade plain_upgrade).fits hu
theorem plain_ledger : Plain wLedger := by
  rintro a t v h
  cases a <;> simp only [wLedger] at h
  · obtain ⟨u, x, h, _⟩ := h; exact case_plain h
  · obtain ⟨u, x, h, _⟩ := h; exact case_plain h
theorem reads_ledger : Reads desLedger wLedger := by
  rintro a t v h
  cases a <;> simp only [wLedger] at h
  · obtain ⟨u, x, h, hx⟩ := h
    obtain ⟨h1, h2⟩ := ledger_case h
    refine ⟨h1, ?_⟩
    simp only [desLedger, h2, label_eq, (reads_config _ _ _ hx).2, Option.map_some]
    rw [if_pos trivial]
  · obtain ⟨u, x, h, hx⟩ := h
    obtain ⟨h1, h2⟩ := ledger_case h
    refine ⟨h1, ?_⟩
    simp only [desLedger, h2, label_eq, ((reads_opt reads_upgrade plain_upgrade) _ _ _ hx).2, Option.map_some]
    rw [if_neg (by decide +kernel), if_pos trivial]

theorem logVisibility_case {name : String} {u : Ty} {x : Val} {t : Ty} {v : Val}
    (h : Case [("controllers", IsNull), ("public", IsNull), ("allowed_viewers", Fits (wVec wPrincipal))] name u x t v) :
    accepts desLogVisibility.ty t = true ∧ theCase t v = some (nameHash name, u, x) := by
  apply reads_case h
  · simp only [List.mem_cons, List.not_mem_nil, or_false, List.map_cons, List.map_nil]
    rintro k (rfl | rfl | rfl) <;> simp
  · simp only [List.mem_cons, List.not_mem_nil, or_false]
    rintro k (rfl | rfl | rfl) f (rfl | rfl | rfl) he u hu
    · exact accepts_null hu
    · exact absurd he (by decide +kernel)
    · exact absurd he (by decide +kernel)
    · exact absurd he (by decide +kernel)
    · exact accepts_null hu
    · exact absurd he (by decide +kernel)
    · exact absurd he (by decide +kernel)
    · exact absurd he (by decide +kernel)
    · exact (reads_vec reads_principal).fits hu
theorem plain_logVisibility : Plain wLogVisibility := by
  rintro a t v h
  cases a <;> simp only [wLogVisibility] at h
  · exact case_plain h
  · exact case_plain h
  · obtain ⟨u, x, h, _⟩ := h; exact case_plain h
theorem reads_logVisibility : Reads desLogVisibility wLogVisibility := by
  rintro a t v h
  cases a <;> simp only [wLogVisibility] at h
  · obtain ⟨h1, h2⟩ := logVisibility_case h
    refine ⟨h1, ?_⟩
    simp only [desLogVisibility, h2, label_eq]
    rw [if_pos trivial]
  · obtain ⟨h1, h2⟩ := logVisibility_case h
    refine ⟨h1, ?_⟩
    simp only [desLogVisibility, h2, label_eq]
    rw [if_neg (by decide +kernel), if_pos trivial]
  · obtain ⟨u, x, h, hx⟩ := h
    obtain ⟨h1, h2⟩ := logVisibility_case h
    refine ⟨h1, ?_⟩
    simp only [desLogVisibility, h2, label_eq, ((reads_vec reads_principal) _ _ _ hx).2, Option.map_some]
    rw [if_neg (by decide +kernel), if_neg (by decide +kernel), if_pos trivial]

theorem reads_settings : Reads desSettings wSettings := by
  rintro a t v ⟨s, hr, h0, h1, h2, h3, h4, h5, h6, h7, h8⟩
  obtain ⟨a0, b0⟩ := reads_hasOpt (reads_vec reads_principal) (plain_vec _) hr h0
  obtain ⟨a1, b1⟩ := reads_hasOpt reads_nat plain_nat hr h1
  obtain ⟨a2, b2⟩ := reads_hasOpt reads_nat plain_nat hr h2
  obtain ⟨a3, b3⟩ := reads_hasOpt reads_nat plain_nat hr h3
  obtain ⟨a4, b4⟩ := reads_hasOpt reads_nat plain_nat hr h4
  obtain ⟨a5, b5⟩ := reads_hasOpt reads_nat plain_nat hr h5
  obtain ⟨a6, b6⟩ := reads_hasOpt reads_nat plain_nat hr h6
  obtain ⟨a7, b7⟩ := reads_hasOpt reads_logVisibility plain_logVisibility hr h7
  obtain ⟨a8, b8⟩ := reads_hasOpt (reads_vec reads_variable) (plain_vec _) hr h8
  refine ⟨accepts_struct hr ?_, ?_⟩
  · simp only [List.mem_cons, List.not_mem_nil, or_false]
    rintro f (rfl | rfl | rfl | rfl | rfl | rfl | rfl | rfl | rfl)
    · exact a0
    · exact a1
    · exact a2
    · exact a3
    · exact a4
    · exact a7
    · exact a5
    · exact a6
    · exact a8
  · simp only [desSettings, b0, b1, b2, b3, b4, b5, b6, b7, b8, Option.bind_eq_bind, Option.bind_some, Option.pure_def]
theorem plain_settings : Plain wSettings := by rintro a t v ⟨s, hr, _⟩; exact record_plain hr

theorem reads_filter : Reads desFilter wFilter := by
  rintro a t v ⟨s, hr, h0⟩
  obtain ⟨a0, b0⟩ := reads_hasOpt reads_text plain_text hr h0
  refine ⟨accepts_struct hr ?_, b0⟩
  simp only [List.mem_cons, List.not_mem_nil, or_false]
  rintro f rfl; exact a0

theorem reads_subnet : Reads desSubnet wSubnet := by
  rintro a t v ⟨s, hr, h0⟩
  obtain ⟨a0, b0⟩ := reads_has reads_principal hr h0
  refine ⟨accepts_struct hr ?_, b0⟩
  simp only [List.mem_cons, List.not_mem_nil, or_false]
  rintro f rfl; exact a0

theorem selection_case {name : String} {u : Ty} {x : Val} {t : Ty} {v : Val}
    (h : Case [("Filter", Fits wFilter), ("Subnet", Fits wSubnet)] name u x t v) :
    accepts desSelection.ty t = true ∧ theCase t v = some (nameHash name, u, x) := by
  apply reads_case h
  · simp only [List.mem_cons, List.not_mem_nil, or_false, List.map_cons, List.map_nil]
    rintro k (rfl | rfl) <;> simp
  · simp only [List.mem_cons, List.not_mem_nil, or_false]
    rintro k (rfl | rfl) f (rfl | rfl) he u hu
    · exact reads_filter.fits hu
    · exact absurd he (by decide +kernel)
    · exact absurd he (by decide +kernel)
    · exact reads_subnet.fits hu
theorem plain_selection : Plain wSelection := by
  rintro a t v h
  cases a <;> simp only [wSelection] at h
  · obtain ⟨u, x, h, _⟩ := h; exact case_plain h
  · obtain ⟨u, x, h, _⟩ := h; exact case_plain h
theorem reads_selection : Reads desSelection wSelection := by
  rintro a t v h
  cases a <;> simp only [wSelection] at h
  · obtain ⟨u, x, h, hx⟩ := h
    obtain ⟨h1, h2⟩ := selection_case h
    refine ⟨h1, ?_⟩
    simp only [desSelection, h2, label_eq, (reads_filter _ _ _ hx).2, Option.map_some]
    rw [if_pos trivial]
  · obtain ⟨u, x, h, hx⟩ := h
    obtain ⟨h1, h2⟩ := selection_case h
    refine ⟨h1, ?_⟩
    simp only [desSelection, h2, label_eq, (reads_subnet _ _ _ hx).2, Option.map_some]
    rw [if_neg (by decide +kernel), if_pos trivial]

theorem reads_cmcArgs : Reads desCmcArgs wCmcArgs := by
  rintro a t v ⟨s, hr, h0, h1⟩
  obtain ⟨a0, b0⟩ := reads_hasOpt reads_settings plain_settings hr h0
  obtain ⟨a1, b1⟩ := reads_hasOpt reads_selection plain_selection hr h1
  refine ⟨accepts_struct hr ?_, ?_⟩
  · simp only [List.mem_cons, List.not_mem_nil, or_false]
    rintro f (rfl | rfl)
    · exact a1
    · exact a0
  · simp only [desCmcArgs, b0, b1, Option.bind_eq_bind, Option.bind_some, Option.pure_def]
theorem plain_cmcArgs : Plain wCmcArgs := by rintro a t v ⟨s, hr, _⟩; exact record_plain hr

theorem reads_create : Reads desCreate wCreate := by
  rintro a t v ⟨s, hr, h0, h1, h2, h3⟩
  obtain ⟨a0, b0⟩ := reads_hasOpt reads_subaccount plain_subaccount hr h0
  obtain ⟨a1, b1⟩ := reads_hasOpt reads_u64 plain_u64 hr h1
  obtain ⟨a2, b2⟩ := reads_has reads_nat hr h2
  obtain ⟨a3, b3⟩ := reads_hasOpt reads_cmcArgs plain_cmcArgs hr h3
  refine ⟨accepts_struct hr ?_, ?_⟩
  · simp only [List.mem_cons, List.not_mem_nil, or_false]
    rintro f (rfl | rfl | rfl | rfl)
    · exact a0
    · exact a1
    · exact a2
    · exact a3
  · simp only [desCreate, b0, b1, b2, b3, Option.bind_eq_bind, Option.bind_some, Option.pure_def]
theorem plain_create : Plain wCreate := by rintro a t v ⟨s, hr, _⟩; exact record_plain hr

theorem reads_createFrom : Reads desCreateFrom wCreateFrom := by
  rintro a t v ⟨s, hr, h0, h1, h2, h3, h4⟩
  obtain ⟨a0, b0⟩ := reads_has reads_account hr h0
  obtain ⟨a1, b1⟩ := reads_hasOpt reads_subaccount plain_subaccount hr h1
  obtain ⟨a2, b2⟩ := reads_hasOpt reads_u64 plain_u64 hr h2
  obtain ⟨a3, b3⟩ := reads_has reads_nat hr h3
  obtain ⟨a4, b4⟩ := reads_hasOpt reads_cmcArgs plain_cmcArgs hr h4
  refine ⟨accepts_struct hr ?_, ?_⟩
  · simp only [List.mem_cons, List.not_mem_nil, or_false]
    rintro f (rfl | rfl | rfl | rfl | rfl)
    · exact a0
    · exact a1
    · exact a2
    · exact a3
    · exact a4
  · simp only [desCreateFrom, b0, b1, b2, b3, b4, Option.bind_eq_bind, Option.bind_some, Option.pure_def]
theorem plain_createFrom : Plain wCreateFrom := by rintro a t v ⟨s, hr, _⟩; exact record_plain hr

/-! ## Decoding -/

theorem decode_reads {A : Type} {d : Des A} {w : Way A} (h : Reads d w) {bs : Bytes} {t : Ty}
    {v : Val} {more : List (Ty × Val)} {x : A} (hm : IsMessage bs ((t, v) :: more)) (hw : w x t v) :
    decode d bs = some x := by
  obtain ⟨h1, h2⟩ := h x t v hw
  simp only [decode, readMessage_isMessage hm, h1, h2, if_true]

end CyclesLedger.Candid
