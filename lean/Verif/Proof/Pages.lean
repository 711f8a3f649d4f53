import Verif.Model.Pages
import Verif.Proof.Float
import Verif.Spec.Json
/-!
# The two pages can be read
-/
namespace CyclesLedger

/-! ## Numbers -/

theorem decimal_ne (n : Nat) : decimal n ≠ [] := Nat.toDigits_ne_nil

theorem decimal_digit {n : Nat} {c : Char} (h : c ∈ decimal n) : c.isDigit = true :=
  Nat.isDigit_of_mem_toDigits (by decide) (by decide) h

theorem decimal_not_mem {n : Nat} {c : Char} (hc : c.isDigit = false) : c ∉ decimal n := by
  intro h
  rw [decimal_digit h] at hc
  cases hc

theorem decimal_all (n : Nat) : (decimal n).all Char.isDigit = true := by
  rw [List.all_eq_true]
  exact fun c hc => decimal_digit hc

theorem decimal_value (n : Nat) :
    (decimal n).foldl (fun n c => 10 * n + (c.toNat - 48)) 0 = n := by
  have h := Nat.ofDigitChars_toDigits (b := 10) (n := n) (by decide) (by decide)
  unfold Nat.ofDigitChars at h
  exact h

theorem decimal_head (n : Nat) (h : (decimal n).head? = some '0') : n = 0 := by
  induction n using Nat.strongRecOn with
  | ind n ih =>
    unfold decimal at h ih
    rw [Nat.toDigits_eq_if (by decide)] at h
    split at h
    · rename_i hn
      have h1 := Nat.toNat_digitChar_of_lt_ten hn
      simp only [List.head?_cons, Option.some.injEq] at h
      rw [h] at h1
      have h2 : '0'.toNat = 48 := by decide
      omega
    · rename_i hn
      have hne := Nat.toDigits_ne_nil (n := n / 10) (b := 10)
      have h2 : (Nat.toDigits 10 (n / 10)).head? = some '0' := by
        cases hd : Nat.toDigits 10 (n / 10) with
        | nil => exact absurd hd hne
        | cons a t => rw [hd] at h; exact h
      have := ih (n / 10) (by omega) h2
      omega

theorem decimal_length {n k : Nat} (hk : 0 < k) (h : n < 10 ^ k) : (decimal n).length ≤ k :=
  (Nat.length_toDigits_le_iff (by decide) hk).mpr h

theorem whole_decimal (n : Nat) : Spec.whole (decimal n) = some n := by
  unfold Spec.whole
  rw [if_pos ⟨decimal_ne n, decimal_all n⟩, decimal_value]

theorem integer_signed (z : Int) : Spec.integer (signed z) = some z := by
  cases z with
  | ofNat n =>
    show Spec.integer (decimal n) = _
    have h : (decimal n).head? ≠ some '-' := by
      intro h
      exact decimal_not_mem (by decide) (List.mem_of_head? h)
    unfold Spec.integer
    rw [if_neg h, whole_decimal]
    rfl
  | negSucc n =>
    show Spec.integer ('-' :: decimal (n + 1)) = _
    unfold Spec.integer
    rw [if_pos (by rfl), List.tail_cons, whole_decimal]
    rfl

theorem signed_not_mem {z : Int} {c : Char} (hc : c.isDigit = false) (hm : c ≠ '-') :
    c ∉ signed z := by
  cases z with
  | ofNat n => exact decimal_not_mem hc
  | negSucc n =>
    intro h
    rcases List.mem_cons.mp h with h | h
    · exact hm h
    · exact decimal_not_mem hc h

/-! ## The numbers of the gauges -/

theorem f64OfNat_near (n : Nat) : 2 ^ 53 * Spec.distance n (f64OfNat n) ≤ n := by
  rcases Nat.lt_or_ge n (2 ^ 53) with h | h
  · rw [f64OfNat_small h]
    simp [Spec.distance]
  · obtain ⟨hlo, hhi⟩ := log2_bounds h
    have hsh : n.log2 - 52 = (n.log2 - 53) + 1 := by
      have h0 : n ≠ 0 := by intro hn; subst hn; simp at h
      have h1 : 53 ≤ n.log2 := (Nat.le_log2 h0).2 h
      omega
    generalize hs : n.log2 - 52 = sh at hlo hhi hsh
    have hp : 0 < 2 ^ sh := Nat.two_pow_pos sh
    have hdm := Nat.div_add_mod n (2 ^ sh)
    have hr := Nat.mod_lt n hp
    have hd : 2 * Spec.distance n (f64OfNat n) ≤ 2 ^ sh := by
      unfold f64OfNat
      simp only [hs]
      have hS : (n / 2 ^ sh + 1) * 2 ^ sh = n / 2 ^ sh * 2 ^ sh + 2 ^ sh := Nat.succ_mul _ _
      rw [Nat.mul_comm] at hdm
      rw [hS]
      unfold Spec.distance
      generalize n / 2 ^ sh * 2 ^ sh = Q at *
      generalize 2 ^ sh = S at *
      generalize n % S = r at *
      split <;> omega
    omega

theorem f64OfNat_idem (n : Nat) : f64OfNat (f64OfNat n) = f64OfNat n := by
  obtain ⟨h1, _⟩ := f64OfNat_spec n
  have h2 := (f64OfNat_spec (f64OfNat n)).2 _ h1
  simp only [Spec.distance] at h2
  omega

theorem shortest_reads {v : Nat} (hv : f64OfNat v = v) : ∀ k, f64OfNat (shortest k v) = v
  | 0 => hv
  | k + 1 => by
    unfold shortest
    simp only
    split
    · rename_i h; exact h.1
    · split
      · rename_i h; exact h
      · exact shortest_reads hv k

theorem shown_reads (n : Nat) : f64OfNat (shown (f64OfNat n)) = f64OfNat n :=
  shortest_reads (f64OfNat_idem n) 39

/-- Small numbers are written as they are. -/
theorem shown_small {n : Nat} (h : n < 2 ^ 53) : shown (f64OfNat n) = n := by
  have h1 := shown_reads n
  rw [f64OfNat_small h] at h1 ⊢
  obtain ⟨_, h3⟩ := f64OfNat_spec (shown n)
  rw [h1] at h3
  rcases Nat.lt_trichotomy (shown n) n with hl | hl | hl
  · have := f64OfNat_small (show shown n < 2 ^ 53 by omega)
    omega
  · exact hl
  · rcases Nat.lt_or_ge (n + 1) (2 ^ 53) with hn | hn
    · have := h3 (n + 1) ⟨n + 1, 0, hn, by simp⟩
      simp only [Spec.distance] at this
      omega
    · have := h3 (2 ^ 53) ⟨1, 53, by decide, by simp⟩
      simp only [Spec.distance] at this
      omega

theorem shown_near (n : Nat) : 2 ^ 53 * Spec.distance (shown (f64OfNat n)) n ≤
    shown (f64OfNat n) + n := by
  have h1 := f64OfNat_near n
  have h2 := f64OfNat_near (shown (f64OfNat n))
  rw [shown_reads] at h2
  simp only [Spec.distance] at *
  omega

/-! ## Prometheus -/

theorem lines_append : ∀ (l t : List Char), '\n' ∉ l → Spec.lines (l ++ '\n' :: t) = l :: Spec.lines t
  | [], t, _ => by simp [Spec.lines]
  | c :: l, t, h => by
    have h1 : c ≠ '\n' := fun e => h (by rw [e]; exact List.mem_cons_self)
    have h2 := lines_append l t (fun hm => h (List.mem_cons_of_mem _ hm))
    simp [Spec.lines, h1, h2]

theorem words_append : ∀ (l t : List Char), ' ' ∉ l → Spec.words (l ++ ' ' :: t) = l :: Spec.words t
  | [], t, _ => by simp [Spec.words]
  | c :: l, t, h => by
    have h1 : c ≠ ' ' := fun e => h (by rw [e]; exact List.mem_cons_self)
    have h2 := words_append l t (fun hm => h (List.mem_cons_of_mem _ hm))
    simp [Spec.words, h1, h2]

theorem words_one : ∀ (l : List Char), ' ' ∉ l → Spec.words l = [l]
  | [], _ => by simp [Spec.words]
  | c :: l, h => by
    have h1 : c ≠ ' ' := fun e => h (by rw [e]; exact List.mem_cons_self)
    have h2 := words_one l (fun hm => h (List.mem_cons_of_mem _ hm))
    simp [Spec.words, h1, h2]

/-- A comment adds nothing. -/
theorem samples_comment {l rest : List Char} (hl : '\n' ∉ l) (h : l.head? = some '#') :
    Spec.samples (l ++ '\n' :: rest) = Spec.samples rest := by
  unfold Spec.samples
  rw [lines_append l rest hl, List.filter_cons_of_neg (by simp [h])]

/-- A line with a value adds it. -/
theorem samples_sample {name : String} {v : Nat} {t : Int} {rest : List Char}
    (hn : ' ' ∉ name.toList) (hn' : '\n' ∉ name.toList) (hh : name.toList.head? ≠ some '#')
    (hne : name.toList ≠ []) :
    Spec.samples (sampleText t name v ++ rest) =
      (Spec.samples rest).map (fun l => (name, v, t) :: l) := by
  unfold sampleText
  have hnl : '\n' ∉ name.toList ++ ' ' :: decimal v ++ ' ' :: signed t := by
    intro h
    simp only [List.mem_append, List.mem_cons] at h
    rcases h with (h | h | h) | h | h
    · exact hn' h
    · exact absurd h (by decide)
    · exact decimal_not_mem (by decide) h
    · exact absurd h (by decide)
    · exact signed_not_mem (by decide) (by decide) h
  have e : name.toList ++ ' ' :: decimal v ++ ' ' :: signed t ++ ['\n'] ++ rest =
      (name.toList ++ ' ' :: decimal v ++ ' ' :: signed t) ++ '\n' :: rest := by
    simp only [List.append_assoc, List.cons_append, List.nil_append]
  have hs : Spec.sample (name.toList ++ ' ' :: decimal v ++ ' ' :: signed t) = some (name, v, t) := by
    unfold Spec.sample
    rw [List.append_assoc, List.cons_append, words_append _ _ hn,
      words_append _ _ (decimal_not_mem (by decide)),
      words_one _ (signed_not_mem (by decide) (by decide))]
    simp only [whole_decimal, integer_signed]
    simp
  have hp : ((name.toList ++ ' ' :: decimal v ++ ' ' :: signed t).head? ≠ some '#') := by
    cases hd : name.toList with
    | nil => exact absurd hd hne
    | cons a l => rw [hd] at hh; exact hh
  rw [e]
  unfold Spec.samples
  rw [lines_append _ _ hnl, List.filter_cons_of_pos (by simpa using hp), List.mapM_cons, hs]
  simp only [Option.bind_eq_bind, Option.bind_some, Option.pure_def]
  cases List.mapM Spec.sample (List.filter (fun l => decide (l.head? ≠ some '#')) (Spec.lines rest))
    <;> rfl

theorem samples_header {name help : String} {rest : List Char} (hn : '\n' ∉ name.toList)
    (hh : '\n' ∉ help.toList) :
    Spec.samples (headerText name help ++ rest) = Spec.samples rest := by
  have e : headerText name help ++ rest =
      ("# HELP ".toList ++ name.toList ++ ' ' :: help.toList) ++ '\n' ::
        (("# TYPE ".toList ++ name.toList ++ " gauge".toList) ++ '\n' :: rest) := by
    have : " gauge\n".toList = " gauge".toList ++ ['\n'] := by
      rw [String.toList_ofList]
      rfl
    unfold headerText
    rw [this]
    simp only [List.append_assoc, List.cons_append, List.nil_append]
  rw [e, samples_comment, samples_comment]
  · simp [hn]
  · simp
  · simp [hn, hh]
  · simp

theorem samples_gauge {name help : String} {v : Nat} {t : Int} {rest : List Char}
    (h : ' ' ∉ name.toList ∧ '\n' ∉ name.toList ∧ name.toList.head? ≠ some '#' ∧
      name.toList ≠ [] ∧ '\n' ∉ help.toList) :
    Spec.samples (gaugeText t (name, v, help) ++ rest) =
      (Spec.samples rest).map (fun l => (name, shown v, t) :: l) := by
  unfold gaugeText
  rw [List.append_assoc, samples_header h.2.1 h.2.2.2.2, samples_sample h.1 h.2.1 h.2.2.1 h.2.2.2.1]

/-! ## JSON -/

open Spec (Json)

theorem char_plain {c : Char} {t : List Char} (h1 : c ≠ '"') (h2 : c ≠ '\\')
    (h3 : ¬ c.toNat < 32) : Json.char (c :: t) = some (some c, t) := by
  unfold Json.char
  simp only [if_neg h1, if_neg h2, if_neg h3]

theorem char_escape {e c : Char} {t : List Char} (h : Json.unescape e = some c) (hu : e ≠ 'u') :
    Json.char ('\\' :: e :: t) = some (some c, t) := by
  have h0 : '\\' ≠ '"' := by decide
  unfold Json.char
  simp only [if_neg h0, if_true, if_neg hu, h]

theorem char_hex {a b d e : Char} {i j k l : Nat} {t : List Char} (ha : Json.unhex a = some i)
    (hb : Json.unhex b = some j) (hd : Json.unhex d = some k) (he : Json.unhex e = some l) :
    Json.char ('\\' :: 'u' :: a :: b :: d :: e :: t) =
      some (some (Char.ofNat (((i * 16 + j) * 16 + k) * 16 + l)), t) := by
  have h0 : '\\' ≠ '"' := by decide
  unfold Json.char
  simp only [if_neg h0, if_true, ha, hb, hd, he]

theorem char_json (c : Char) (t : List Char) :
    Json.char (jsonChar c ++ t) = some (some c, t) := by
  have hof : ∀ n, c.toNat = n → Char.ofNat n = c := by
    rintro n rfl; exact Char.ofNat_toNat c
  unfold jsonChar
  split
  · rename_i e; subst e; exact char_escape (by decide) (by decide)
  rename_i e1
  split
  · rename_i e; subst e; exact char_escape (by decide) (by decide)
  rename_i e2
  split
  · rename_i e; rw [← hof _ e]; exact char_escape (by decide) (by decide)
  split
  · rename_i e; rw [← hof _ e]; exact char_escape (by decide) (by decide)
  split
  · rename_i e; rw [← hof _ e]; exact char_escape (by decide) (by decide)
  split
  · rename_i e; rw [← hof _ e]; exact char_escape (by decide) (by decide)
  split
  · rename_i e; rw [← hof _ e]; exact char_escape (by decide) (by decide)
  split
  · rename_i e
    have hx : ∀ n, n < 16 → Json.unhex (hexDigit n) = some n := by decide
    have h0 : Json.unhex '0' = some 0 := by decide
    have hd : (((0 * 16 + 0) * 16 + c.toNat / 16) * 16 + c.toNat % 16) = c.toNat := by
      omega
    have := char_hex (t := t) h0 h0 (hx (c.toNat / 16) (by omega))
      (hx (c.toNat % 16) (Nat.mod_lt c.toNat (by decide)))
    rw [hd, Char.ofNat_toNat] at this
    exact this
  · rename_i e
    exact char_plain e1 e2 e

theorem jsonChar_length (c : Char) : 1 ≤ (jsonChar c).length ∧ (jsonChar c).length ≤ 6 := by
  unfold jsonChar
  repeat' split
  all_goals exact ⟨by simp, by simp⟩

theorem flatMap_length (s : List Char) : s.length ≤ (s.flatMap jsonChar).length := by
  induction s with
  | nil => exact Nat.le_refl _
  | cons c s ih =>
    have := (jsonChar_length c).1
    simp only [List.flatMap_cons, List.length_append, List.length_cons]
    omega

theorem chars_read (s rest : List Char) : ∀ f, s.length < f →
    Json.chars f (s.flatMap jsonChar ++ '"' :: rest) = some (s, rest) := by
  induction s with
  | nil =>
    intro f hf
    cases f with
    | zero => exact absurd hf (Nat.not_lt_zero _)
    | succ f =>
      show Json.chars (f + 1) ('"' :: rest) = _
      have : Json.char ('"' :: rest) = some (none, rest) := by
        unfold Json.char
        simp only [if_true]
      unfold Json.chars
      simp only [this]
  | cons c s ih =>
    intro f hf
    cases f with
    | zero => exact absurd hf (Nat.not_lt_zero _)
    | succ f =>
      have h := ih f (by simp only [List.length_cons] at hf; omega)
      have h2 := char_json c (s.flatMap jsonChar ++ '"' :: rest)
      rw [List.flatMap_cons, List.append_assoc]
      unfold Json.chars
      simp only [h2, h]

theorem string_read (s rest : List Char) :
    Json.string (s.flatMap jsonChar ++ '"' :: rest) = some (s, rest) := by
  have h := flatMap_length s
  exact chars_read s rest _ (by simp only [List.length_append, List.length_cons]; omega)

/-- What may follow a number. -/
def NoDigit (rest : List Char) : Prop := ∀ c, rest.head? = some c → c.isDigit = false

theorem number_read (n : Nat) (rest : List Char) (hr : NoDigit rest) :
    Json.number (decimal n ++ rest) = some (.num n, rest) := by
  have h1 : (decimal n ++ rest).takeWhile Char.isDigit = decimal n := by
    rw [List.takeWhile_append_of_pos (fun c hc => decimal_digit hc)]
    cases rest with
    | nil => simp
    | cons c t => rw [List.takeWhile_cons_of_neg (by simp [hr c rfl])]; simp
  have h2 : (decimal n ++ rest).dropWhile Char.isDigit = rest := by
    rw [List.dropWhile_append_of_pos (fun c hc => decimal_digit hc)]
    cases rest with
    | nil => simp
    | cons c t => rw [List.dropWhile_cons_of_neg (by simp [hr c rfl])]
  unfold Json.number
  simp only [h1, h2, decimal_value]
  rw [if_neg]
  rintro (h | ⟨h, hl⟩)
  · exact decimal_ne n h
  · have := decimal_head n h
    subst this
    exact absurd hl (by decide)

/-- A number or a string. -/
inductive Scalar where
  | num (n : Nat)
  | str (s : List Char)

def Scalar.json : Scalar → Json
  | .num n => .num n
  | .str s => .str s

def Scalar.print : Scalar → Page
  | .num n => decimal n
  | .str s => jsonString s

theorem value_number {f n : Nat} {rest : List Char} (hr : NoDigit rest) :
    Json.value (f + 1) (decimal n ++ rest) = some (.num n, rest) := by
  have hn := number_read n rest hr
  have key : ∀ c t, decimal n ++ rest = c :: t → c.isDigit = true := by
    intro c t h
    cases hd : decimal n with
    | nil => exact absurd hd (decimal_ne n)
    | cons a l =>
      rw [hd] at h
      cases h
      exact decimal_digit (n := n) (by rw [hd]; exact List.mem_cons_self)
  unfold Json.value
  split
  · rename_i t e; exact absurd (key _ _ e) (by decide)
  · rename_i t e; exact absurd (key _ _ e) (by decide)
  · rename_i t _ e; exact absurd (key _ _ e) (by decide)
  · rename_i t e; exact absurd (key _ _ e) (by decide)
  · rename_i t _ e; exact absurd (key _ _ e) (by decide)
  · exact hn

theorem value_scalar {f : Nat} (x : Scalar) {rest : List Char} (hr : NoDigit rest) :
    Json.value (f + 1) (x.print ++ rest) = some (x.json, rest) := by
  cases x with
  | num n => exact value_number hr
  | str s =>
    have := string_read s rest
    simp only [Scalar.print, jsonString, Scalar.json, List.cons_append, List.append_assoc,
      List.nil_append]
    unfold Json.value
    simp only [this]

/-- A member of an object. -/
def memberText (e : List Char × Scalar) : Page := jsonString e.1 ++ ':' :: e.2.print

theorem noDigit_cons {c : Char} {t : List Char} (h : c.isDigit = false) : NoDigit (c :: t) := by
  intro d hd
  cases hd
  exact h

theorem members_read : ∀ (l : List (List Char × Scalar)) (f : Nat) (rest : List Char), l ≠ [] →
    l.length < f → Json.members f (commas (l.map memberText) ++ '}' :: rest) =
      some (l.map (fun e => (e.1, e.2.json)), rest)
  | [], _, _, h, _ => absurd rfl h
  | [(k, v)], f + 2, rest, _, _ => by
    have h1 := string_read k (':' :: (v.print ++ '}' :: rest))
    have h2 := value_scalar (f := f) v (rest := '}' :: rest) (noDigit_cons (by decide))
    simp only [List.map_cons, List.map_nil, commas, memberText, jsonString, List.cons_append,
      List.append_assoc, List.nil_append]
    unfold Json.members
    simp only [h1, h2]
  | (k, v) :: e :: l, f + 2, rest, _, hf => by
    have h3 := members_read (e :: l) (f + 1) rest (by simp) (by simp only [List.length_cons] at *; omega)
    rw [List.map_cons] at h3
    have h1 := string_read k (':' :: (v.print ++ ',' :: (commas ((e :: l).map memberText) ++ '}' :: rest)))
    have h2 := value_scalar (f := f) v
      (rest := ',' :: (commas ((e :: l).map memberText) ++ '}' :: rest)) (noDigit_cons (by decide))
    rw [List.map_cons] at h1 h2
    have hc : commas (((k, v) :: e :: l).map memberText) =
        memberText (k, v) ++ ',' :: commas ((e :: l).map memberText) := rfl
    rw [hc, List.map_cons]
    have hm : memberText (k, v) = '"' :: (k.flatMap jsonChar ++ '"' :: ':' :: v.print) := by
      simp [memberText, jsonString]
    rw [hm]
    simp only [List.cons_append, List.append_assoc]
    unfold Json.members
    simp only [h1, h2, h3, List.map_cons]
  | [(k, v)], 0, _, _, hf => absurd hf (by simp)
  | [(k, v)], 1, _, _, hf => absurd hf (by simp)
  | (k, v) :: e :: l, 0, _, _, hf => absurd hf (by simp)
  | (k, v) :: e :: l, 1, _, _, hf => absurd hf (by simp)

/-- An object of numbers and strings. -/
def objectText (l : List (List Char × Scalar)) : Page := '{' :: commas (l.map memberText) ++ ['}']

def objectJson (l : List (List Char × Scalar)) : Json := .obj (l.map (fun e => (e.1, e.2.json)))

theorem commas_head (e : List Char × Scalar) (l : List (List Char × Scalar)) (r : List Char) :
    ∃ t, commas ((e :: l).map memberText) ++ r = '"' :: t := by
  cases l with
  | nil => exact ⟨_, rfl⟩
  | cons a b => exact ⟨_, rfl⟩

theorem value_object {l : List (List Char × Scalar)} {f : Nat} (rest : List Char) (hl : l ≠ [])
    (hf : l.length < f) : Json.value (f + 1) (objectText l ++ rest) = some (objectJson l, rest) := by
  have h1 := members_read l f rest hl hf
  cases l with
  | nil => exact absurd rfl hl
  | cons e l =>
    obtain ⟨t, ht⟩ := commas_head e l ('}' :: rest)
    have he : objectText (e :: l) ++ rest = '{' :: (commas ((e :: l).map memberText) ++ '}' :: rest) := by
      simp [objectText]
    rw [he]
    rw [ht] at h1 ⊢
    unfold Json.value
    split
    · rename_i e; cases e
    · rename_i e; cases e
    · rename_i e; cases e
    · rename_i e; cases e
    · rename_i e; cases e; simp only [h1]; rfl
    · rename_i hx; exact absurd rfl (hx _)

theorem elements_read {K : Nat} : ∀ (l : List (List (List Char × Scalar))) (f : Nat)
    (rest : List Char), l ≠ [] → (∀ x ∈ l, x ≠ [] ∧ x.length ≤ K) → l.length + K + 1 < f →
    Json.elements f (commas (l.map objectText) ++ ']' :: rest) = some (l.map objectJson, rest)
  | [], _, _, h, _, _ => absurd rfl h
  | [x], f + 2, rest, _, hx, hf => by
    obtain ⟨h1, h2⟩ := hx x List.mem_cons_self
    have h3 := value_object (f := f) (']' :: rest) h1 (by simp at hf; omega)
    show Json.elements (f + 2) (objectText x ++ ']' :: rest) = _
    unfold Json.elements
    simp only [h3, List.map_cons, List.map_nil]
  | x :: y :: l, f + 2, rest, _, hx, hf => by
    obtain ⟨h1, h2⟩ := hx x List.mem_cons_self
    have h3 := value_object (f := f)
      (',' :: (commas ((y :: l).map objectText) ++ ']' :: rest)) h1 (by simp at hf; omega)
    have h4 := elements_read (y :: l) (f + 1) rest (by simp)
      (fun z hz => hx z (List.mem_cons_of_mem _ hz)) (by simp only [List.length_cons] at *; omega)
    have hc : commas ((x :: y :: l).map objectText) =
        objectText x ++ ',' :: commas ((y :: l).map objectText) := rfl
    rw [hc, List.append_assoc, List.cons_append, List.map_cons] at *
    unfold Json.elements
    simp only [h3, h4, List.map_cons]
  | [x], 0, _, _, _, hf => absurd hf (by simp)
  | [x], 1, _, _, _, hf => absurd hf (by simp)
  | x :: y :: l, 0, _, _, _, hf => absurd hf (by simp)
  | x :: y :: l, 1, _, _, _, hf => absurd hf (by simp)

end CyclesLedger
