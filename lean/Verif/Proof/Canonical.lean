import Verif.Proof.Values
import Verif.Proof.Fields
/-! # CBOR values that survive the conversion to a generic value and back -/
namespace CyclesLedger

/-- The shortest big-endian form of a number: no leading zero byte, and one byte for zero. -/
def Spec.Minimal (b : Bytes) : Prop := b = [0] ∨ (b ≠ [] ∧ b.head? ≠ some 0)

/-- CBOR values in the ledger's own form: integers of 64 bits without sign, shortest bignums,
byte strings, texts, arrays, and maps with texts as keys, in increasing order; no other tags. -/
inductive Spec.Canonical : CVal → Prop
  | int {i} : 0 ≤ i → i ≤ 18446744073709551615 → Spec.Canonical (.int i)
  | bignum {b} : Spec.Minimal b → Spec.Canonical (.tag 2 (.bytes b))
  | bytes {b} : Spec.Canonical (.bytes b)
  | text {t} : Spec.Canonical (.text t)
  | array {vs} : (∀ v ∈ vs, Spec.Canonical v) → Spec.Canonical (.array vs)
  | map {kvs} : (∀ e ∈ kvs, ∃ t, e.1 = .text t) →
      kvs.Pairwise (fun a b => ∀ t u, a.1 = .text t → b.1 = .text u → listLt t u = true) →
      (∀ e ∈ kvs, Spec.Canonical e.2) → Spec.Canonical (.map kvs)

theorem ofLE_pos {l : Bytes} (h : l ≠ []) (hl : l.getLast? ≠ some 0) : 0 < ofLE l := by
  induction l with
  | nil => exact absurd rfl h
  | cons b t ih =>
    simp only [ofLE]
    cases t with
    | nil =>
      have : b.toNat ≠ 0 := fun h0 => hl (by
        have hb : b = 0 := UInt8.toNat_inj.mp h0
        rw [hb]; rfl)
      omega
    | cons c t =>
      have := ih (by simp) (by rw [List.getLast?_cons_cons] at hl; exact hl)
      omega

theorem leDigits_ofLE {l : Bytes} (h : l.getLast? ≠ some 0) : leDigits (ofLE l) = l := by
  induction l with
  | nil => unfold leDigits; simp [ofLE]
  | cons b t ih =>
    have hp := ofLE_pos (l := b :: t) (by simp) h
    have ht : leDigits (ofLE t) = t := by
      cases t with
      | nil => unfold leDigits; simp [ofLE]
      | cons c t => exact ih (by rw [List.getLast?_cons_cons] at h; exact h)
    unfold leDigits
    rw [dif_neg (by omega)]
    simp only [ofLE]
    have hb := b.toNat_lt
    rw [show (b.toNat + 256 * ofLE t) / 256 = ofLE t by omega, ht,
      show (b.toNat + 256 * ofLE t) % 256 = b.toNat by omega, UInt8.ofNat_toNat]

theorem leDigits_last (n : Nat) : (leDigits n).getLast? ≠ some 0 := by
  induction n using Nat.strongRecOn with
  | ind n ih =>
    unfold leDigits
    split
    · simp
    · rename_i h
      cases hd : leDigits (n / 256) with
      | nil =>
        rw [List.getLast?_singleton]
        have h0 : n / 256 = 0 := by
          have := ofLE_leDigits (n / 256); rw [hd] at this; simpa [ofLE] using this.symm
        intro h1
        have := congrArg UInt8.toNat (Option.some.inj h1)
        rw [UInt8.toNat_ofNat'] at this
        have h2 : (0 : UInt8).toNat = 0 := rfl
        omega
      | cons c t =>
        rw [List.getLast?_cons_cons, ← hd]
        exact ih _ (by omega)

theorem minimal_toBytesBE (n : Nat) : Spec.Minimal (toBytesBE n) := by
  unfold toBytesBE
  split
  · exact Or.inl rfl
  · rename_i h
    refine Or.inr ⟨?_, ?_⟩
    · intro h0
      have h1 : leDigits n = [] := by simpa using h0
      have := ofLE_leDigits n
      rw [h1] at this
      exact h this.symm
    · rw [List.head?_reverse]; exact leDigits_last n

theorem toBytesBE_ofBytesBE {b : Bytes} (h : Spec.Minimal b) : toBytesBE (ofBytesBE b) = b := by
  rcases h with rfl | ⟨h1, h2⟩
  · rfl
  · have hl : b.reverse.getLast? ≠ some 0 := by rw [List.getLast?_reverse]; exact h2
    unfold ofBytesBE toBytesBE
    rw [if_neg (Nat.pos_iff_ne_zero.mp (ofLE_pos (by simpa using h1) hl)), leDigits_ofLE hl,
      List.reverse_reverse]

/-! ## What comes out is in canonical form -/

theorem canonical_of_generic (v : Value) : ∀ d c, Spec.Proper v → genericToCbor v d = some c →
    Spec.Canonical c := by
  refine Value.ind (P := fun v => ∀ d c, Spec.Proper v → genericToCbor v d = some c →
    Spec.Canonical c) ?_ ?_ ?_ ?_ ?_ ?_ v
  · intro n d c _ h
    unfold genericToCbor at h
    split at h
    · cases h
    · cases h; exact .bignum (minimal_toBytesBE n)
  · intro i d c _ h
    unfold genericToCbor at h
    split at h
    · cases h
    · simp only at h
      split at h
      · cases h
      · rename_i hi
        split at h
        · rename_i hu
          cases h
          refine .int (by omega) ?_
          rw [U64MAX_eq] at hu
          omega
        · cases h
  · intro b d c _ h
    unfold genericToCbor at h
    split at h
    · cases h
    · cases h; exact .bytes
  · intro b d c _ h
    unfold genericToCbor at h
    split at h
    · cases h
    · cases h; exact .text
  · intro vs ih d c hp h
    cases hp with
    | array hp =>
    unfold genericToCbor at h
    split at h
    · cases h
    · simp only at h
      cases hl : genericToCborList vs (d + 1) with
      | none => simp [hl] at h
      | some cs =>
        simp only [hl, Option.some.injEq] at h
        subst h
        refine .array ?_
        have hf := genericToCborList_some.mp hl
        clear hl
        induction hf with
        | nil => intro v hv; cases hv
        | cons h1 _ ih2 =>
          intro v hv
          rcases List.mem_cons.mp hv with rfl | hv
          · exact ih _ (by simp) _ _ (hp _ (by simp)) h1
          · exact ih2 (fun v hv => ih v (by simp [hv])) (fun v hv => hp v (by simp [hv])) v hv
  · intro kvs ih d c hp h
    cases hp with
    | map hs hp =>
    unfold genericToCbor at h
    split at h
    · cases h
    · simp only at h
      cases hl : genericToCborMap kvs (d + 1) with
      | none => simp [hl] at h
      | some cs =>
        simp only [hl, Option.some.injEq] at h
        subst h
        have hf := genericToCborMap_some.mp hl
        clear hl
        have key : ∀ {kvs : List (Text × Value)} {cs : List (CVal × CVal)},
            All2 (fun e c => c.1 = .text e.1 ∧ genericToCbor e.2 (d + 1) = some c.2) kvs cs →
            ∀ c ∈ cs, ∃ e ∈ kvs, c.1 = .text e.1 ∧ genericToCbor e.2 (d + 1) = some c.2 := by
          intro kvs cs h
          induction h with
          | nil => intro c hc; cases hc
          | cons h1 _ ih2 =>
            intro c hc
            rcases List.mem_cons.mp hc with rfl | hc
            · exact ⟨_, by simp, h1⟩
            · obtain ⟨e, he, h2⟩ := ih2 c hc
              exact ⟨e, by simp [he], h2⟩
        refine .map ?_ ?_ ?_
        · intro c hc
          obtain ⟨e, _, h1, _⟩ := key hf c hc
          exact ⟨_, h1⟩
        · clear ih hp
          induction hf with
          | nil => exact .nil
          | @cons e c l l' h1 hf ih2 =>
            rw [List.pairwise_cons] at hs ⊢
            refine ⟨?_, ih2 hs.2⟩
            intro c' hc' t u ht hu
            obtain ⟨e', he', h2, _⟩ := key hf c' hc'
            have := hs.1 e' he'
            rw [h1.1] at ht
            rw [h2] at hu
            cases ht; cases hu
            exact this
        · intro c hc
          obtain ⟨e, he, _, h2⟩ := key hf c hc
          exact ih e he _ _ (hp e he) h2

/-! ## What is in canonical form comes back -/

theorem mem_mapInsert {V : Type} {l : List (Text × V)} {k : Text} {v : V} {e : Text × V}
    (h : e ∈ mapInsert l k v) : e = (k, v) ∨ e ∈ l := SMap.mem_insertL h

theorem proper_of_cbor (c : CVal) : ∀ d v, cborToGeneric c d = .ok v → Spec.Proper v := by
  refine CVal.ind (P := fun c => ∀ d v, cborToGeneric c d = .ok v → Spec.Proper v)
    ?_ ?_ ?_ ?_ ?_ ?_ ?_ ?_ ?_ c
  · intro i d v h
    unfold cborToGeneric at h
    split at h
    · cases h
    · simp only at h
      split at h
      · cases h
      · cases h; exact .int
  · intro b d v h
    unfold cborToGeneric at h
    split at h
    · cases h
    · cases h; exact .blob
  · intro b d v h
    unfold cborToGeneric at h
    split at h
    · cases h
    · cases h; exact .text
  · intro vs ih d v h
    unfold cborToGeneric at h
    split at h
    · cases h
    · simp only at h
      cases hl : cborToGenericList vs (d + 1) with
      | error e => simp [hl] at h
      | ok vs' =>
        simp only [hl, Except.ok.injEq] at h
        subst h
        refine .array ?_
        have hf := cborToGenericList_ok.mp hl
        clear hl
        induction hf with
        | nil => intro v hv; cases hv
        | cons h1 _ ih2 =>
          intro v hv
          rcases List.mem_cons.mp hv with rfl | hv
          · exact ih _ (by simp) _ _ h1
          · exact ih2 (fun v hv => ih v (by simp [hv])) v hv
  · intro kvs ih d v h
    unfold cborToGeneric at h
    split at h
    · cases h
    · simp only at h
      cases hl : cborToGenericMap kvs (d + 1) [] with
      | error e => simp [hl] at h
      | ok m =>
        simp only [hl, Except.ok.injEq] at h
        subst h
        have key : ∀ (kvs : List (CVal × CVal)) (acc : List (Text × Value)) (m : List (Text × Value)),
            (∀ e ∈ kvs, ∀ d v, cborToGeneric e.2 d = .ok v → Spec.Proper v) →
            acc.Pairwise (fun a b => TotOrd.lt a.1 b.1 = true) → (∀ e ∈ acc, Spec.Proper e.2) →
            cborToGenericMap kvs (d + 1) acc = .ok m →
            m.Pairwise (fun a b => TotOrd.lt a.1 b.1 = true) ∧ ∀ e ∈ m, Spec.Proper e.2 := by
          intro kvs
          induction kvs with
          | nil => intro acc m _ h1 h2 h; simp [cborToGenericMap] at h; subst h; exact ⟨h1, h2⟩
          | cons e t ih3 =>
            obtain ⟨k, c⟩ := e
            intro acc m hP h1 h2 h
            unfold cborToGenericMap at h
            cases k with
            | text k =>
              simp only at h
              cases hv : cborToGeneric c (d + 1) with
              | error e => simp [hv] at h
              | ok v =>
                simp only [hv] at h
                refine ih3 _ m (fun e he => hP e (by simp [he])) (SMap.sorted_insertL h1 k v) ?_ h
                intro e he
                rcases mem_mapInsert he with rfl | he
                · exact hP (.text k, c) (by simp) _ _ hv
                · exact h2 e he
            | _ => simp at h
        have := key kvs [] m (fun e he => (ih e he).2) .nil (by simp) hl
        exact .map this.1 this.2
  · intro b d v h
    unfold cborToGeneric at h
    split at h <;> cases h
  · intro d v h
    unfold cborToGeneric at h
    split at h <;> cases h
  · intro b d v h
    unfold cborToGeneric at h
    split at h <;> cases h
  · intro t c ih d v h
    unfold cborToGeneric at h
    split at h
    · cases h
    · simp only at h
      split at h
      · exact ih _ _ h
      · split at h
        · split at h
          · cases h; exact .nat
          · cases h
        · cases h

theorem generic_of_canonical (c : CVal) : ∀ d v, Spec.Canonical c → cborToGeneric c d = .ok v →
    genericToCbor v d = some c := by
  refine CVal.ind (P := fun c => ∀ d v, Spec.Canonical c → cborToGeneric c d = .ok v →
    genericToCbor v d = some c) ?_ ?_ ?_ ?_ ?_ ?_ ?_ ?_ ?_ c
  · intro i d v hc h
    cases hc with
    | int h0 h1 =>
    unfold cborToGeneric at h
    split at h
    · cases h
    · rename_i hd
      simp only at h
      rw [if_neg (by omega)] at h
      cases h
      unfold genericToCbor
      rw [if_neg hd]
      simp only
      rw [if_neg (by omega), if_pos (by rw [U64MAX_eq]; omega)]
  · intro b d v _ h
    unfold cborToGeneric at h
    split at h
    · cases h
    · rename_i hd
      cases h
      unfold genericToCbor
      rw [if_neg hd]
  · intro b d v _ h
    unfold cborToGeneric at h
    split at h
    · cases h
    · rename_i hd
      cases h
      unfold genericToCbor
      rw [if_neg hd]
  · intro vs ih d v hc h
    cases hc with
    | array hc =>
    unfold cborToGeneric at h
    split at h
    · cases h
    · rename_i hd
      simp only at h
      cases hl : cborToGenericList vs (d + 1) with
      | error e => simp [hl] at h
      | ok vs' =>
        simp only [hl, Except.ok.injEq] at h
        subst h
        have hf := cborToGenericList_ok.mp hl
        have hg : genericToCborList vs' (d + 1) = some vs := by
          rw [genericToCborList_some]
          clear hl
          induction hf with
          | nil => exact .nil
          | cons h1 _ ih2 =>
            exact .cons (ih _ (by simp) _ _ (hc _ (by simp)) h1)
              (ih2 (fun v hv => ih v (by simp [hv])) (fun v hv => hc v (by simp [hv])))
        unfold genericToCbor
        rw [if_neg hd]
        simp [hg]
  · intro kvs ih d v hc h
    cases hc with
    | map hk hs hc =>
    unfold cborToGeneric at h
    split at h
    · cases h
    · rename_i hd
      simp only at h
      cases hl : cborToGenericMap kvs (d + 1) [] with
      | error e => simp [hl] at h
      | ok m =>
        simp only [hl, Except.ok.injEq] at h
        subst h
        have key : ∀ (kvs : List (CVal × CVal)) (acc m : List (Text × Value)),
            (∀ e ∈ kvs, ∀ d v, Spec.Canonical e.2 → cborToGeneric e.2 d = .ok v →
              genericToCbor v d = some e.2) →
            (∀ e ∈ kvs, Spec.Canonical e.2) →
            kvs.Pairwise (fun a b => ∀ t u, a.1 = .text t → b.1 = .text u → listLt t u = true) →
            (∀ a ∈ acc, ∀ e ∈ kvs, ∀ t, e.1 = .text t → listLt a.1 t = true) →
            cborToGenericMap kvs (d + 1) acc = .ok m →
            ∃ m', m = acc ++ m' ∧ genericToCborMap m' (d + 1) = some kvs := by
          intro kvs
          induction kvs with
          | nil =>
            intro acc m _ _ _ _ h
            simp [cborToGenericMap] at h
            exact ⟨[], by simp [h], by simp [genericToCborMap]⟩
          | cons e t ih3 =>
            obtain ⟨k, c⟩ := e
            intro acc m hP hC hS hacc h
            unfold cborToGenericMap at h
            cases k with
            | text k =>
              simp only at h
              cases hv : cborToGeneric c (d + 1) with
              | error e => simp [hv] at h
              | ok v =>
                simp only [hv] at h
                have hins : mapInsert acc k v = acc ++ [(k, v)] :=
                  insertL_last (fun a ha => hacc a ha (.text k, c) (by simp) k rfl)
                rw [hins] at h
                rw [List.pairwise_cons] at hS
                obtain ⟨m', hm, hg⟩ := ih3 _ m (fun e he => hP e (by simp [he]))
                  (fun e he => hC e (by simp [he])) hS.2 (by
                    intro a ha e he t' ht'
                    rcases List.mem_append.mp ha with h | h
                    · exact hacc a h e (by simp [he]) t' ht'
                    · rw [List.mem_singleton] at h
                      subst h
                      exact hS.1 e he k t' rfl ht') h
                refine ⟨(k, v) :: m', by simp [hm], ?_⟩
                have h1 := hP (.text k, c) (by simp) _ _ (hC _ (by simp)) hv
                simp only at h1
                simp [genericToCborMap, h1, hg]
            | _ => simp at h
        obtain ⟨m', hm, hg⟩ := key kvs [] m (fun e he => (ih e he).2) hc hs (by simp) hl
        simp only [List.nil_append] at hm
        subst hm
        unfold genericToCbor
        rw [if_neg hd]
        simp [hg]
  · intro b d v hc; cases hc
  · intro d v hc; cases hc
  · intro b d v hc; cases hc
  · intro t c ih d v hc h
    cases hc with
    | bignum hm =>
    unfold cborToGeneric at h
    split at h
    · cases h
    · rename_i hd
      simp only [TAG_SELF_DESCRIBED, TAG_BIGNUM] at h
      rw [if_neg (by omega)] at h
      simp only [if_true] at h
      cases h
      unfold genericToCbor
      rw [if_neg hd]
      simp only [TAG_BIGNUM, toBytesBE_ofBytesBE hm]

end CyclesLedger
