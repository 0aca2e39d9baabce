import Verif.Spec.LanguageTag
import Verif.Spec.ProviderLocaliser
import Verif.Model.Formatter
/-
Lemmas about language identifiers.
-/
namespace Verif.TagLemmas
open Verif Verif.Tag
open Verif.Spec hiding lower

/-! ### Characters -/

theorem ascii {P : Char → Prop} (h : ∀ n : Fin 128, P (Char.ofNat n)) {c : Char} (hc : c.toNat < 128) : P c := by
  have := h ⟨c.toNat, hc⟩
  rwa [Char.ofNat_toNat] at this

theorem isAscii {c : Char} (h : c.isAlphanum = true) : c.toNat < 128 := by
  simp only [Char.isAlphanum, Char.isAlpha, Char.isUpper, Char.isLower, Char.isDigit, Bool.or_eq_true, Bool.and_eq_true,
    decide_eq_true_eq, ge_iff_le, UInt32.le_iff_toNat_le] at h
  have : c.toNat = c.val.toNat := rfl
  simp at h
  omega

theorem alphanum {P : Char → Prop} (h : ∀ n : Fin 128, (Char.ofNat n).isAlphanum = true → P (Char.ofNat n)) {c : Char}
    (hc : c.isAlphanum = true) : P c :=
  ascii (P := fun c => c.isAlphanum = true → P c) h (isAscii hc) hc

theorem letter_iff (c : Char) : Letter c ↔ c.isAlpha = true := by
  simp only [Letter, Char.isAlpha, Char.isUpper, Char.isLower, Bool.or_eq_true, Bool.and_eq_true, decide_eq_true_eq,
    ge_iff_le, Char.le_def]
  exact Or.comm

theorem digit_iff (c : Char) : Digit c ↔ c.isDigit = true := by
  simp [Digit, Char.isDigit, Char.le_def]

theorem alphanum_iff (c : Char) : (Letter c ∨ Digit c) ↔ c.isAlphanum = true := by
  rw [letter_iff, digit_iff]; simp [Char.isAlphanum]

theorem alpha_alphanum {c : Char} (h : c.isAlpha = true) : c.isAlphanum = true := by simp [Char.isAlphanum, h]
theorem digit_alphanum {c : Char} (h : c.isDigit = true) : c.isAlphanum = true := by simp [Char.isAlphanum, h]

theorem toLower_of_not_upper {c : Char} (h : c.isUpper = false) : c.toLower = c := by
  unfold Char.toLower
  split
  · next hc =>
    exfalso
    simp [Char.isUpper] at h
    exact absurd hc.2 (by simpa using h hc.1)
  · rfl

theorem toUpper_of_not_lower {c : Char} (h : c.isLower = false) : c.toUpper = c := by
  unfold Char.toUpper
  split
  · next hc =>
    exfalso
    simp [Char.isLower] at h
    exact absurd hc.2 (by simpa using h hc.1)
  · rfl

theorem upper_alphanum {c : Char} (h : c.isUpper = true) : c.isAlphanum = true := by
  simp [Char.isAlphanum, Char.isAlpha, h]

theorem toLower_not_upper (c : Char) : c.toLower.isUpper = false := by
  by_cases h : c.isUpper = true
  · exact alphanum (P := fun c => c.toLower.isUpper = false) (by decide) (upper_alphanum h)
  · have h : c.isUpper = false := by simpa using h
    rw [toLower_of_not_upper h, h]

theorem toLower_toLower (c : Char) : c.toLower.toLower = c.toLower := toLower_of_not_upper (toLower_not_upper c)

theorem not_separator {c : Char} (h : c.isAlphanum = true) : isSeparator c = false :=
  alphanum (P := fun c => isSeparator c = false) (by decide) h

/-! ### Parts -/

theorem separator_false {c : Char} : isSeparator c = false ↔ c ≠ '-' ∧ c ≠ '_' := by simp [isSeparator]

theorem subtags_ne_nil (q : Str) : subtags q ≠ [] := by
  cases q with
  | nil => simp [subtags]
  | cons c rest =>
    unfold subtags
    split
    · simp
    · cases h : subtags rest <;> simp

theorem subtags_one {s : Str} (h : ∀ c ∈ s, c ≠ '-' ∧ c ≠ '_') : subtags s = [s] := by
  induction s with
  | nil => rfl
  | cons c s ih =>
    unfold subtags
    rw [if_neg (by simp [separator_false.2 (h c (by simp))]), ih fun d hd => h d (by simp [hd])]

theorem subtags_more {s q : Str} {c : Char} (h : ∀ c ∈ s, c ≠ '-' ∧ c ≠ '_') (hc : c = '-' ∨ c = '_') :
    subtags (s ++ c :: q) = s :: subtags q := by
  induction s with
  | nil =>
    simp only [List.nil_append]
    rw [subtags.eq_2, if_pos (by simpa [isSeparator] using hc)]
  | cons d s ih =>
    rw [List.cons_append, subtags.eq_2, if_neg (by simp [separator_false.2 (h d (by simp))]),
      ih fun e he => h e (by simp [he])]

theorem subtags_of_parts {q : Str} {ps : List Str} (h : PartsOf q ps) : subtags q = ps := by
  induction h with
  | one h => exact subtags_one h
  | more c h hc _ ih => rw [subtags_more h hc, ih]

theorem parts_subtags (q : Str) : PartsOf q (subtags q) := by
  induction q with
  | nil => exact .one (by simp)
  | cons c rest ih =>
    rw [subtags.eq_2]
    split
    · next h => exact .more (s := []) c (by simp) (by simpa [isSeparator] using h) ih
    · next h =>
      have hc := separator_false.1 (by simpa using h)
      cases hs : subtags rest with
      | nil => exact absurd hs (subtags_ne_nil rest)
      | cons s ss =>
        rw [hs] at ih
        cases ih with
        | one h => exact .one (List.forall_mem_cons.2 ⟨hc, h⟩)
        | more e h he hq =>
          exact .more (s := c :: s) e (List.forall_mem_cons.2 ⟨hc, h⟩) he hq

theorem parts_iff (q : Str) (ps : List Str) : PartsOf q ps ↔ subtags q = ps :=
  ⟨subtags_of_parts, fun h => h ▸ parts_subtags q⟩

theorem join_cons {s : Str} {ss : List Str} (h : ss ≠ []) : join (s :: ss) = s ++ '-' :: join ss := by
  cases ss with
  | nil => exact absurd rfl h
  | cons a as => rfl

theorem parts_join {ps : List Str} (hne : ps ≠ []) (h : ∀ p ∈ ps, ∀ c ∈ p, c ≠ '-' ∧ c ≠ '_') : PartsOf (join ps) ps := by
  induction ps with
  | nil => exact absurd rfl hne
  | cons p ps ih =>
    cases ps with
    | nil => exact .one (h p (by simp))
    | cons a as =>
      rw [join_cons (by simp)]
      exact .more '-' (h p (by simp)) (.inl rfl) (ih (by simp) fun p hp => h p (by simp [hp]))

theorem parts_ne_nil {q : Str} {ps : List Str} (h : PartsOf q ps) : ps ≠ [] := by cases h <;> simp

theorem join_parts {q : Str} {ps : List Str} (h : PartsOf q ps) (hq : '_' ∉ q) : join ps = q := by
  induction h with
  | one _ => rfl
  | more c _ hc hp ih =>
    have hc' : c = '-' := by
      rcases hc with h | h
      · exact h
      · subst h; simp at hq
    rw [join_cons (parts_ne_nil hp), ih (by simp at hq; exact hq.2.2), hc']

theorem no_underscore_join {ps : List Str} (h : ∀ p ∈ ps, ∀ c ∈ p, c ≠ '-' ∧ c ≠ '_') : '_' ∉ join ps := by
  induction ps with
  | nil => simp [join]
  | cons p ps ih =>
    intro hm
    cases ps with
    | nil => exact (h p (by simp) _ hm).2 rfl
    | cons a as =>
      rw [join_cons (by simp)] at hm
      rcases List.mem_append.1 hm with hm | hm
      · exact (h p (by simp) _ hm).2 rfl
      · rcases List.mem_cons.1 hm with hm | hm
        · cases hm
        · exact ih (fun p hp => h p (by simp [hp])) hm

/-! ### Subtags -/

theorem letters_iff (s : Str) : letters s = true ↔ ∀ c ∈ s, Letter c := by simp [letters, letter_iff]
theorem digits_iff (s : Str) : digits s = true ↔ ∀ c ∈ s, Digit c := by simp [digits, digit_iff]
theorem alphanumeric_iff (s : Str) : alphanumeric s = true ↔ ∀ c ∈ s, Letter c ∨ Digit c := by
  simp [alphanumeric, alphanum_iff]

theorem language_some {s : Str} (h : LanguagePart s) : language? s = some (lower s) := by
  unfold language?; rw [if_pos ⟨h.1, (letters_iff s).2 h.2⟩]
theorem language_none {s : Str} (h : ¬ LanguagePart s) : language? s = none := by
  unfold language?; rw [if_neg (fun x => h ⟨x.1, (letters_iff s).1 x.2⟩)]
theorem script_some {s : Str} (h : ScriptPart s) : script? s = some (title s) := by
  unfold script?; rw [if_pos ⟨h.1, (letters_iff s).2 h.2⟩]
theorem script_none {s : Str} (h : ¬ ScriptPart s) : script? s = none := by
  unfold script?; rw [if_neg (fun x => h ⟨x.1, (letters_iff s).1 x.2⟩)]
theorem region_cond (s : Str) : ((s.length = 2 ∧ letters s = true) ∨ (s.length = 3 ∧ digits s = true)) ↔ RegionPart s := by
  rw [letters_iff, digits_iff]; rfl
theorem region_some {s : Str} (h : RegionPart s) : region? s = some (upper s) := by
  unfold region?; rw [if_pos ((region_cond s).2 h)]
theorem region_none {s : Str} (h : ¬ RegionPart s) : region? s = none := by
  unfold region?; rw [if_neg (fun x => h ((region_cond s).1 x))]
theorem variant_cond (s : Str) : ((((5 ≤ s.length ∧ s.length ≤ 8) ∨ (s.length = 4 ∧ (s.take 1).all Char.isDigit = true)) ∧
    alphanumeric s = true)) ↔ VariantPart s := by
  rw [alphanumeric_iff, and_comm]
  unfold VariantPart
  refine and_congr_right fun _ => or_congr_right (and_congr_right fun hl => ?_)
  cases s with
  | nil => simp at hl
  | cons c rest => simp [digit_iff]
theorem variant_some {s : Str} (h : VariantPart s) : variant? s = some (lower s) := by
  unfold variant?; rw [if_pos ((variant_cond s).2 h)]
theorem variant_none {s : Str} (h : ¬ VariantPart s) : variant? s = none := by
  unfold variant?; rw [if_neg (fun x => h ((variant_cond s).1 x))]

theorem not_letter_of_digit {c : Char} (h : Digit c) : ¬ Letter c := by
  rw [letter_iff]
  rw [digit_iff] at h
  have := alphanum (P := fun c => c.isDigit = true → c.isAlpha = false) (by decide) (digit_alphanum h) h
  simp [this]

theorem region_not_script {s : Str} (h : RegionPart s) : ¬ ScriptPart s := by
  rintro ⟨h1, _⟩
  rcases h with h | h <;> omega
theorem variant_not_script {s : Str} (h : VariantPart s) : ¬ ScriptPart s := by
  rintro ⟨h1, h2⟩
  rcases h.2 with ⟨h, _⟩ | ⟨_, c, rest, rfl, hd⟩
  · omega
  · exact not_letter_of_digit hd (h2 c (by simp))
theorem variant_not_region {s : Str} (h : VariantPart s) : ¬ RegionPart s := by
  intro hr
  have : 4 ≤ s.length := by rcases h.2 with h | h <;> omega
  rcases hr with h | h <;> omega

/-! ### Variants -/

instance : Std.Irrefl (· < · : Char → Char → Prop) := ⟨Char.lt_irrefl⟩

theorem str_lt_irrefl (a : Str) : ¬ a < a := List.lt_irrefl a
theorem str_lt_trans {a b c : Str} (h : a < b) (h' : b < c) : a < c := List.lt_trans h h'
theorem str_lt_of_not {a b : Str} (h : ¬ a < b) (hne : a ≠ b) : b < a := by
  rcases Std.le_iff_lt_or_eq.1 (List.not_lt.1 h) with h | h
  · exact h
  · exact absurd h.symm hne

theorem sorted_nodup {ws : List Str} (h : ws.Pairwise (· < ·)) : ws.Nodup := by
  refine List.Pairwise.imp ?_ h
  rintro a b hab rfl
  exact str_lt_irrefl _ hab

theorem insert_none {v : Str} {ws : List Str} (h : insertVariant v ws = none) : v ∈ ws := by
  induction ws with
  | nil => cases h
  | cons w ws ih =>
    unfold insertVariant at h
    split at h
    · cases h
    · split at h
      · next e => simp [e]
      · simp only [Option.map_eq_none_iff] at h
        exact List.mem_cons_of_mem _ (ih h)

theorem insert_some {v : Str} {ws us : List Str} (hs : ws.Pairwise (· < ·)) (h : insertVariant v ws = some us) :
    us.Pairwise (· < ·) ∧ us.Perm (v :: ws) ∧ v ∉ ws := by
  induction ws generalizing us with
  | nil => cases h; simp
  | cons w ws ih =>
    unfold insertVariant at h
    obtain ⟨hw, hs'⟩ := List.pairwise_cons.1 hs
    split at h
    · next hlt =>
      cases h
      refine ⟨List.pairwise_cons.2 ⟨?_, hs⟩, .refl _, ?_⟩
      · intro a ha
        rcases List.mem_cons.1 ha with rfl | ha
        · exact hlt
        · exact str_lt_trans hlt (hw a ha)
      · intro hm
        rcases List.mem_cons.1 hm with rfl | hm
        · exact str_lt_irrefl _ hlt
        · exact str_lt_irrefl _ (str_lt_trans hlt (hw v hm))
    · split at h
      · cases h
      · next hn hne =>
        obtain ⟨us', hu, rfl⟩ := Option.map_eq_some_iff.1 h
        obtain ⟨h1, h2, h3⟩ := ih hs' hu
        have hwv := str_lt_of_not hn hne
        refine ⟨List.pairwise_cons.2 ⟨?_, h1⟩, ?_, ?_⟩
        · intro a ha
          rcases List.mem_cons.1 (h2.mem_iff.1 ha) with rfl | ha
          · exact hwv
          · exact hw a ha
        · exact (h2.cons w).trans (.swap _ _ _)
        · intro hm
          rcases List.mem_cons.1 hm with e | hm
          · exact hne e
          · exact h3 hm

/-- Reading variants. -/
theorem variants_of {ss : List Str} (hv : ∀ s ∈ ss, VariantPart s) : ∀ {x : Identifier}, x.variants.Pairwise (· < ·) →
    (ss.map lower ++ x.variants).Nodup →
    ∃ vs, parseRest .variant x ss = .ok { x with variants := vs } ∧ vs.Pairwise (· < ·) ∧
      vs.Perm (ss.map lower ++ x.variants) := by
  induction ss with
  | nil => intro x hx _; exact ⟨x.variants, rfl, hx, .refl _⟩
  | cons s ss ih =>
    intro x hx hn
    simp only [parseRest, variant_some (hv s (by simp))]
    simp only [List.map_cons, List.cons_append, List.nodup_cons] at hn
    cases hi : insertVariant (lower s) x.variants with
    | none => exact absurd (List.mem_append_right _ (insert_none hi)) hn.1
    | some us =>
      obtain ⟨h1, h2, h3⟩ := insert_some hx hi
      have hp : (ss.map lower ++ us).Perm (lower s :: (ss.map lower ++ x.variants)) :=
        (h2.append_left _).trans List.perm_middle
      obtain ⟨vs, e, hs, hperm⟩ := ih (fun s hs => hv s (by simp [hs])) (x := { x with variants := us }) h1
        (hp.nodup_iff.2 (List.nodup_cons.2 hn))
      exact ⟨vs, e, hs, hperm.trans hp⟩

/-- Reading variants succeeds only for variants that are different. -/
theorem variants_only {ss : List Str} : ∀ {x y : Identifier}, x.variants.Pairwise (· < ·) →
    parseRest .variant x ss = .ok y → (∀ s ∈ ss, VariantPart s) ∧ (ss.map lower ++ x.variants).Nodup := by
  induction ss with
  | nil =>
    intro x y hx _
    exact ⟨by simp, by simpa using sorted_nodup hx⟩
  | cons s ss ih =>
    intro x y hx h
    simp only [parseRest] at h
    by_cases hv : VariantPart s
    · rw [variant_some hv] at h
      cases hi : insertVariant (lower s) x.variants with
      | none => simp [hi] at h
      | some us =>
        simp only [hi] at h
        obtain ⟨h1, h2, h3⟩ := insert_some hx hi
        obtain ⟨i1, i2⟩ := ih (x := { x with variants := us }) h1 h
        refine ⟨List.forall_mem_cons.2 ⟨hv, i1⟩, ?_⟩
        have hp : (ss.map lower ++ us).Perm (lower s :: (ss.map lower ++ x.variants)) :=
          (h2.append_left _).trans List.perm_middle
        exact hp.nodup_iff.1 i2
    · rw [variant_none hv] at h; cases h

/-! ### The parser -/

/-- The parts in a well-formed tag. -/
structure Shape (ps : List Str) (l : Str) (s r : Option Str) (vs : List Str) : Prop where
  parts : ps = l :: (s.toList ++ r.toList ++ vs)
  language : LanguagePart l
  script : ∀ x ∈ s, ScriptPart x
  region : ∀ x ∈ r, RegionPart x
  variants : ∀ x ∈ vs, VariantPart x
  distinct : (vs.map lower).Nodup

theorem from_region {x : Identifier} (hx : x.variants = []) {r : Option Str} {vs : List Str} (hr : ∀ a ∈ r, RegionPart a)
    (hx' : x.region = none) (hv : ∀ a ∈ vs, VariantPart a) (hn : (vs.map lower).Nodup) :
    ∃ ws, parseRest .region x (r.toList ++ vs) = .ok { x with region := r.map upper, variants := ws } ∧
      ws.Pairwise (· < ·) ∧ ws.Perm (vs.map lower) := by
  cases r with
  | some a =>
    simp only [Option.toList_some, List.cons_append, List.nil_append, parseRest, region_some (hr a rfl)]
    obtain ⟨ws, e, h1, h2⟩ := variants_of hv (x := { x with region := some (upper a) }) (by simp [hx]) (by simpa [hx] using hn)
    exact ⟨ws, e, h1, by simpa [hx] using h2⟩
  | none =>
    cases vs with
    | nil => exact ⟨[], by cases x; simp_all [parseRest], by simp, by simp⟩
    | cons v vs =>
      have hv' := hv v (by simp)
      simp only [Option.toList_none, List.nil_append, parseRest, region_none (variant_not_region hv'), variant_some hv']
      obtain ⟨ws, e, h1, h2⟩ := variants_of (ss := vs) (fun a ha => hv a (List.mem_cons_of_mem _ ha)) (x := { x with variants := [lower v] })
        (by simp) (by
          simp only [List.map_cons] at hn
          exact (List.perm_append_comm (l₁ := vs.map lower) (l₂ := [lower v])).nodup_iff.2 (by simpa using hn))
      refine ⟨ws, by cases x; simp_all, h1, h2.trans ?_⟩
      exact List.perm_append_comm (l₁ := vs.map lower) (l₂ := [lower v])

theorem parse_shape {q : Str} {l : Str} {s r : Option Str} {vs : List Str} (h : Shape (subtags q) l s r vs) :
    ∃ ws, parse q = .ok ⟨lower l, s.map title, r.map upper, ws⟩ ∧ ws.Pairwise (· < ·) ∧ ws.Perm (vs.map lower) := by
  unfold parse
  rw [h.parts]
  simp only [language_some h.language]
  cases s with
  | some a =>
    simp only [Option.toList_some, List.cons_append, List.nil_append, parseRest, script_some (h.script a rfl)]
    exact from_region rfl h.region rfl h.variants h.distinct
  | none =>
    simp only [Option.toList_none, List.nil_append]
    cases r with
    | some a =>
      have ha := h.region a rfl
      simp only [Option.toList_some, List.cons_append, List.nil_append, parseRest, script_none (region_not_script ha),
        region_some ha]
      obtain ⟨ws, e, h1, h2⟩ := variants_of h.variants (x := ⟨lower l, none, some (upper a), []⟩) (by simp)
        (by simpa using h.distinct)
      exact ⟨ws, e, h1, by simpa using h2⟩
    | none =>
      cases vs with
      | nil => exact ⟨[], rfl, by simp, by simp⟩
      | cons v vs =>
        have hv := h.variants v (by simp)
        have := from_region (x := ⟨lower l, none, none, []⟩) rfl (r := none) (by simp) rfl h.variants h.distinct
        simp only [Option.toList_none, List.nil_append, parseRest, region_none (variant_not_region hv),
          variant_some hv] at this
        simp only [Option.toList_none, List.nil_append, parseRest, script_none (variant_not_script hv),
          region_none (variant_not_region hv), variant_some hv]
        exact this

theorem only_region {x y : Identifier} (hx : x.variants = []) {ss : List Str} (h : parseRest .region x ss = .ok y) :
    ∃ r : Option Str, ∃ vs : List Str, ss = r.toList ++ vs ∧ (∀ a ∈ r, RegionPart a) ∧ (∀ a ∈ vs, VariantPart a) ∧
      (vs.map lower).Nodup := by
  cases ss with
  | nil => exact ⟨none, [], rfl, by simp, by simp, by simp⟩
  | cons a ss =>
    simp only [parseRest] at h
    by_cases hr : RegionPart a
    · rw [region_some hr] at h
      obtain ⟨h1, h2⟩ := variants_only (x := { x with region := some (upper a) }) (by simp [hx]) h
      exact ⟨some a, ss, rfl, by simpa using hr, h1, by simpa [hx] using h2⟩
    · rw [region_none hr] at h
      by_cases hv : VariantPart a
      · rw [variant_some hv] at h
        obtain ⟨h1, h2⟩ := variants_only (x := { x with variants := [lower a] }) (by simp) h
        refine ⟨none, a :: ss, rfl, by simp, List.forall_mem_cons.2 ⟨hv, h1⟩, ?_⟩
        have := (List.perm_append_comm (l₁ := ss.map lower) (l₂ := [lower a])).nodup_iff.1 h2
        simpa using this
      · rw [variant_none hv] at h; cases h

theorem shape_of_parse {q : Str} {x : Identifier} (h : parse q = .ok x) :
    ∃ l s r vs, Shape (subtags q) l s r vs := by
  unfold parse at h
  cases hq : subtags q with
  | nil => exact absurd hq (subtags_ne_nil q)
  | cons l ss =>
    simp only [hq] at h
    by_cases hl : LanguagePart l
    · rw [language_some hl] at h
      simp only at h
      cases ss with
      | nil => exact ⟨l, none, none, [], ⟨rfl, hl, by simp, by simp, by simp, by simp⟩⟩
      | cons a ss =>
        by_cases hs : ScriptPart a
        · simp only [parseRest, script_some hs] at h
          obtain ⟨r, vs, e, h1, h2, h3⟩ := only_region rfl h
          exact ⟨l, some a, r, vs, ⟨by simp [e], hl, by simpa using hs, h1, h2, h3⟩⟩
        · simp only [parseRest, script_none hs] at h
          have : parseRest .region ⟨lower l, none, none, []⟩ (a :: ss) = .ok x := by simpa only [parseRest] using h
          obtain ⟨r, vs, e, h1, h2, h3⟩ := only_region rfl this
          exact ⟨l, none, r, vs, ⟨by simp [e], hl, by simp, h1, h2, h3⟩⟩
    · rw [language_none hl] at h; cases h

/-! ### Letter case -/

theorem fold_part {s : Str} (h : ∀ c ∈ s, Letter c ∨ Digit c) : foldTag s = lower s := by
  unfold foldTag lower
  apply List.map_congr_left
  intro c hc
  have := separator_false.1 (not_separator ((alphanum_iff c).1 (h c hc)))
  simp [this.2]

theorem LanguagePart.chars {s : Str} (h : LanguagePart s) : ∀ c ∈ s, Letter c ∨ Digit c := fun c hc => .inl (h.2 c hc)
theorem ScriptPart.chars {s : Str} (h : ScriptPart s) : ∀ c ∈ s, Letter c ∨ Digit c := fun c hc => .inl (h.2 c hc)
theorem RegionPart.chars {s : Str} (h : RegionPart s) : ∀ c ∈ s, Letter c ∨ Digit c := by
  rcases h with h | h
  · exact fun c hc => .inl (h.2 c hc)
  · exact fun c hc => .inr (h.2 c hc)
theorem VariantPart.chars {s : Str} (h : VariantPart s) : ∀ c ∈ s, Letter c ∨ Digit c := h.1

theorem chars_plain {s : Str} (h : ∀ c ∈ s, Letter c ∨ Digit c) : ∀ c ∈ s, c ≠ '-' ∧ c ≠ '_' :=
  fun c hc => separator_false.1 (not_separator ((alphanum_iff c).1 (h c hc)))

theorem letter_toLower {c : Char} (h : Letter c) : Letter c.toLower := by
  rw [letter_iff] at *
  exact alphanum (P := fun c => c.isAlpha = true → c.toLower.isAlpha = true) (by decide) (alpha_alphanum h) h
theorem letter_toUpper {c : Char} (h : Letter c) : Letter c.toUpper := by
  rw [letter_iff] at *
  exact alphanum (P := fun c => c.isAlpha = true → c.toUpper.isAlpha = true) (by decide) (alpha_alphanum h) h
theorem letter_toUpper_upper {c : Char} (h : Letter c) : c.toUpper.isUpper = true := by
  rw [letter_iff] at h
  exact alphanum (P := fun c => c.isAlpha = true → c.toUpper.isUpper = true) (by decide) (alpha_alphanum h) h
theorem digit_toLower {c : Char} (h : Digit c) : Digit c.toLower := by
  rw [digit_iff] at *
  exact alphanum (P := fun c => c.isDigit = true → c.toLower.isDigit = true) (by decide) (digit_alphanum h) h
theorem digit_toUpper {c : Char} (h : Digit c) : Digit c.toUpper := by
  rw [digit_iff] at *
  exact alphanum (P := fun c => c.isDigit = true → c.toUpper.isDigit = true) (by decide) (digit_alphanum h) h
theorem toUpper_not_lower {c : Char} (h : c.isAlphanum = true) : c.toUpper.isLower = false :=
  alphanum (P := fun c => c.toUpper.isLower = false) (by decide) h
theorem toLower_toUpper {c : Char} (h : c.isAlphanum = true) : c.toUpper.toLower = c.toLower :=
  alphanum (P := fun c => c.toUpper.toLower = c.toLower) (by decide) h
theorem toUpper_toLower {c : Char} (h : c.isAlphanum = true) : c.toLower.toUpper = c.toUpper :=
  alphanum (P := fun c => c.toLower.toUpper = c.toUpper) (by decide) h
theorem upper_stays {c : Char} (h : c.isUpper = true) : c.toUpper = c :=
  alphanum (P := fun c => c.isUpper = true → c.toUpper = c) (by decide) (upper_alphanum h) h

theorem lower_lower (s : Str) : lower (lower s) = lower s := by
  unfold lower; simp [List.map_map, Function.comp_def, toLower_toLower]
theorem lower_upper {s : Str} (h : ∀ c ∈ s, Letter c ∨ Digit c) : lower (upper s) = lower s := by
  unfold lower upper
  rw [List.map_map]
  exact List.map_congr_left fun c hc => toLower_toUpper ((alphanum_iff c).1 (h c hc))
theorem lower_title {s : Str} (h : ∀ c ∈ s, Letter c ∨ Digit c) : lower (title s) = lower s := by
  cases s with
  | nil => rfl
  | cons c rest =>
    have := lower_lower rest
    unfold lower at *
    simp only [title, List.map_cons, lower, this, toLower_toUpper ((alphanum_iff c).1 (h c (by simp)))]
theorem upper_of_lower {s t : Str} (hs : ∀ c ∈ s, Letter c ∨ Digit c) (ht : ∀ c ∈ t, Letter c ∨ Digit c)
    (h : lower s = lower t) : upper s = upper t := by
  have key : ∀ {s : Str}, (∀ c ∈ s, Letter c ∨ Digit c) → upper (lower s) = upper s := by
    intro s hs
    unfold lower upper
    rw [List.map_map]
    exact List.map_congr_left fun c hc => toUpper_toLower ((alphanum_iff c).1 (hs c hc))
  rw [← key hs, ← key ht, h]
theorem title_of_lower {s t : Str} (hs : ∀ c ∈ s, Letter c ∨ Digit c) (ht : ∀ c ∈ t, Letter c ∨ Digit c)
    (h : lower s = lower t) : title s = title t := by
  have key : ∀ {s : Str}, (∀ c ∈ s, Letter c ∨ Digit c) → title (lower s) = title s := by
    intro s hs
    cases s with
    | nil => rfl
    | cons c rest =>
      have := lower_lower rest
      unfold lower at *
      simp only [title, List.map_cons, lower, this, toUpper_toLower ((alphanum_iff c).1 (hs c (by simp)))]
  rw [← key hs, ← key ht, h]

theorem mem_lower {s : Str} {c : Char} (h : c ∈ lower s) : ∃ d ∈ s, d.toLower = c := List.mem_map.1 h
theorem mem_upper {s : Str} {c : Char} (h : c ∈ upper s) : ∃ d ∈ s, d.toUpper = c := List.mem_map.1 h

theorem LanguagePart.lower {s : Str} (h : LanguagePart s) : LanguagePart (lower s) := by
  refine ⟨by simpa [Tag.lower] using h.1, ?_⟩
  intro c hc
  obtain ⟨d, hd, rfl⟩ := mem_lower hc
  exact letter_toLower (h.2 d hd)
theorem ScriptPart.title {s : Str} (h : ScriptPart s) : ScriptPart (title s) := by
  cases s with
  | nil => exact absurd h.1 (by simp)
  | cons c rest =>
    refine ⟨by simpa [Tag.title, Tag.lower] using h.1, ?_⟩
    intro d hd
    rcases List.mem_cons.1 hd with rfl | hd
    · exact letter_toUpper (h.2 c (by simp))
    · obtain ⟨e, he, rfl⟩ := mem_lower hd
      exact letter_toLower (h.2 e (by simp [he]))
theorem RegionPart.upper {s : Str} (h : RegionPart s) : RegionPart (upper s) := by
  rcases h with h | h
  · refine .inl ⟨by simpa [Tag.upper] using h.1, ?_⟩
    intro c hc
    obtain ⟨d, hd, rfl⟩ := mem_upper hc
    exact letter_toUpper (h.2 d hd)
  · refine .inr ⟨by simpa [Tag.upper] using h.1, ?_⟩
    intro c hc
    obtain ⟨d, hd, rfl⟩ := mem_upper hc
    exact digit_toUpper (h.2 d hd)
theorem VariantPart.lower {s : Str} (h : VariantPart s) : VariantPart (lower s) := by
  refine ⟨?_, ?_⟩
  · intro c hc
    obtain ⟨d, hd, rfl⟩ := mem_lower hc
    exact (h.1 d hd).imp letter_toLower digit_toLower
  · rcases h.2 with h | ⟨h, c, rest, rfl, hd⟩
    · exact .inl (by simpa [Tag.lower] using h)
    · exact .inr ⟨by simpa [Tag.lower] using h, c.toLower, rest.map Char.toLower, rfl, digit_toLower hd⟩

theorem map_self {α : Type} {f : α → α} {xs : List α} (h : ∀ a ∈ xs, f a = a) : xs.map f = xs := by
  have := List.map_congr_left (f := f) (g := id) (l := xs) h
  rwa [List.map_id] at this

theorem lower_self {s : Str} (h : ∀ c ∈ s, ¬ c.isUpper) : Tag.lower s = s := by
  unfold Tag.lower
  exact map_self fun c hc => toLower_of_not_upper (by simpa using h c hc)
theorem upper_self {s : Str} (h : ∀ c ∈ s, ¬ c.isLower) : Tag.upper s = s := by
  unfold Tag.upper
  exact map_self fun c hc => toUpper_of_not_lower (by simpa using h c hc)

/-! ### Canonical tags -/

theorem wellFormed_iff (q : Str) : WellFormedTag q ↔ ∃ l s r vs, Shape (subtags q) l s r vs := by
  constructor
  · rintro ⟨l, s, r, vs, hp, h1, h2, h3, h4, h5⟩
    refine ⟨l, s, r, vs, ⟨subtags_of_parts hp, h1, h2, h3, h4, ?_⟩⟩
    rwa [List.map_congr_left fun v hv => fold_part (h4 v hv).1] at h5
  · rintro ⟨l, s, r, vs, ⟨hp, h1, h2, h3, h4, h5⟩⟩
    refine ⟨l, s, r, vs, hp ▸ parts_subtags q, h1, h2, h3, h4, ?_⟩
    rwa [List.map_congr_left fun v hv => fold_part (h4 v hv).1]

theorem parse_iff (q : Str) : (∃ x, parse q = .ok x) ↔ WellFormedTag q := by
  rw [wellFormed_iff]
  constructor
  · rintro ⟨x, h⟩; exact shape_of_parse h
  · rintro ⟨l, s, r, vs, h⟩
    obtain ⟨ws, e, _⟩ := parse_shape h
    exact ⟨_, e⟩

/-- What the parser returns. -/
structure Parsed (q : Str) (x : Identifier) (l : Str) (s r : Option Str) (vs : List Str) : Prop where
  shape : Shape (subtags q) l s r vs
  language : x.language = lower l
  script : x.script = s.map title
  region : x.region = r.map upper
  sorted : x.variants.Pairwise (· < ·)
  variants : x.variants.Perm (vs.map lower)

theorem parsed {q : Str} {x : Identifier} (h : parse q = .ok x) : ∃ l s r vs, Parsed q x l s r vs := by
  obtain ⟨l, s, r, vs, hs⟩ := shape_of_parse h
  obtain ⟨ws, e, h1, h2⟩ := parse_shape hs
  rw [h] at e
  cases e
  exact ⟨l, s, r, vs, ⟨hs, rfl, rfl, rfl, h1, h2⟩⟩

theorem Parsed.valid {q : Str} {x : Identifier} {l : Str} {s r : Option Str} {vs : List Str} (h : Parsed q x l s r vs) :
    LanguagePart x.language ∧ (∀ a ∈ x.script, ScriptPart a) ∧ (∀ a ∈ x.region, RegionPart a) ∧
      (∀ a ∈ x.variants, VariantPart a) := by
  refine ⟨h.language ▸ LanguagePart.lower h.shape.language, ?_, ?_, ?_⟩
  · intro a ha
    rw [h.script] at ha
    obtain ⟨b, hb, rfl⟩ := Option.map_eq_some_iff.1 ha
    exact ScriptPart.title (h.shape.script b hb)
  · intro a ha
    rw [h.region] at ha
    obtain ⟨b, hb, rfl⟩ := Option.map_eq_some_iff.1 ha
    exact RegionPart.upper (h.shape.region b hb)
  · intro a ha
    obtain ⟨b, hb, rfl⟩ := List.mem_map.1 (h.variants.mem_iff.1 ha)
    exact VariantPart.lower (h.shape.variants b hb)

theorem Parsed.text_parts {q : Str} {x : Identifier} {l : Str} {s r : Option Str} {vs : List Str} (h : Parsed q x l s r vs) :
    PartsOf x.text (x.language :: (x.script.toList ++ x.region.toList ++ x.variants)) ∧ '_' ∉ x.text := by
  obtain ⟨h1, h2, h3, h4⟩ := h.valid
  have hall : ∀ p ∈ x.parts, ∀ c ∈ p, c ≠ '-' ∧ c ≠ '_' := by
    intro p hp
    apply chars_plain
    unfold Identifier.parts at hp
    simp only [List.mem_cons, List.mem_append, Option.mem_toList] at hp
    rcases hp with rfl | (hp | hp) | hp
    · exact LanguagePart.chars h1
    · exact ScriptPart.chars (h2 p hp)
    · exact RegionPart.chars (h3 p hp)
    · exact VariantPart.chars (h4 p hp)
  exact ⟨parts_join (by simp [Identifier.parts]) hall, no_underscore_join hall⟩

theorem Parsed.canonical {q : Str} {x : Identifier} {l : Str} {s r : Option Str} {vs : List Str} (h : Parsed q x l s r vs) :
    CanonicalTag x.text := by
  obtain ⟨h1, h2, h3, h4⟩ := h.valid
  obtain ⟨p1, p2⟩ := h.text_parts
  refine ⟨x.language, x.script, x.region, x.variants, p1, p2, h1, h2, h3, h4, ?_, ?_, ?_, ?_, h.sorted⟩
  · intro c hc
    rw [h.language] at hc
    obtain ⟨d, _, rfl⟩ := mem_lower hc
    simp [toLower_not_upper]
  · intro a ha
    rw [h.script] at ha
    obtain ⟨b, hb, rfl⟩ := Option.map_eq_some_iff.1 ha
    have hb' := h.shape.script b hb
    cases b with
    | nil => exact absurd hb'.1 (by simp)
    | cons c rest =>
      refine ⟨c.toUpper, Tag.lower rest, rfl, letter_toUpper_upper (hb'.2 c (by simp)), ?_⟩
      intro d hd
      obtain ⟨e, _, rfl⟩ := mem_lower hd
      simp [toLower_not_upper]
  · intro a ha c hc
    rw [h.region] at ha
    obtain ⟨b, hb, rfl⟩ := Option.map_eq_some_iff.1 ha
    obtain ⟨d, hd, rfl⟩ := mem_upper hc
    simp [toUpper_not_lower ((alphanum_iff d).1 (RegionPart.chars (h.shape.region b hb) d hd))]
  · intro a ha c hc
    obtain ⟨b, hb, rfl⟩ := List.mem_map.1 (h.variants.mem_iff.1 ha)
    obtain ⟨d, _, rfl⟩ := mem_lower hc
    simp [toLower_not_upper]

theorem perm_sorted {a b : List Str} (ha : a.Pairwise (· < ·)) (hb : b.Pairwise (· < ·)) (h : a.Perm b) : a = b :=
  h.eq_of_pairwise (le := fun x y => x < y)
    (fun x _ _ _ h1 h2 => absurd (str_lt_trans h1 h2) (str_lt_irrefl x)) ha hb

/-- A canonical tag is what its own identifier is written as. -/
theorem canonical_fixed {t : Str} (h : CanonicalTag t) : ∃ x, parse t = .ok x ∧ x.text = t := by
  obtain ⟨l, s, r, vs, hp, hu, h1, h2, h3, h4, c1, c2, c3, c4, hs⟩ := h
  have hlow : vs.map lower = vs := map_self fun v hv => lower_self (c4 v hv)
  have hshape : Shape (subtags t) l s r vs := by
    refine ⟨subtags_of_parts hp, h1, h2, h3, h4, ?_⟩
    rw [hlow]
    exact sorted_nodup hs
  obtain ⟨ws, e, w1, w2⟩ := parse_shape hshape
  refine ⟨_, e, ?_⟩
  rw [hlow] at w2
  have hw := perm_sorted w1 hs w2
  subst hw
  unfold Identifier.text Identifier.parts
  have e1 : lower l = l := lower_self c1
  have e2 : s.map title = s := by
    cases s with
    | none => rfl
    | some a =>
      obtain ⟨c, rest, rfl, hc, hr⟩ := c2 a rfl
      simp [title, upper_stays hc, lower_self hr]
  have e3 : r.map upper = r := by
    cases r with
    | none => rfl
    | some a => simp [upper_self (c3 a rfl)]
  simp only [e1, e2, e3]
  exact join_parts hp hu

theorem canonicalize_ok {q c : Str} (h : canonicalize q = .ok c) : ∃ x, parse q = .ok x ∧ x.text = c := by
  unfold canonicalize at h
  split at h
  · next x e => cases h; exact ⟨x, e, rfl⟩
  · cases h

theorem canonicalize_canonical {q c : Str} (h : canonicalize q = .ok c) : CanonicalTag c := by
  obtain ⟨x, hx, rfl⟩ := canonicalize_ok h
  obtain ⟨l, s, r, vs, hp⟩ := parsed hx
  exact hp.canonical

theorem canonicalize_fixed {t : Str} (h : CanonicalTag t) : canonicalize t = .ok t := by
  obtain ⟨x, hx, ht⟩ := canonical_fixed h
  unfold canonicalize
  simp [hx, ht]

/-! ### Spellings of one tag -/

theorem fold_perm_parts {s r : Option Str} {vs ws : List Str} (hs : ∀ a ∈ s, ScriptPart a)
    (hr : ∀ a ∈ r, RegionPart a) (hv : ∀ a ∈ vs, VariantPart a) (h : ws.Perm (vs.map lower)) :
    ((s.toList ++ r.toList ++ vs).map foldTag).Perm
      (((s.map title).toList ++ (r.map upper).toList ++ ws).map foldTag) := by
  have e1 : s.toList.map foldTag = (s.map title).toList.map foldTag := by
    cases s with
    | none => rfl
    | some a =>
      have ha := hs a rfl
      simp [fold_part (ScriptPart.chars ha), fold_part (ScriptPart.chars (ScriptPart.title ha)),
        lower_title (ScriptPart.chars ha)]
  have e2 : r.toList.map foldTag = (r.map upper).toList.map foldTag := by
    cases r with
    | none => rfl
    | some a =>
      have ha := hr a rfl
      simp [fold_part (RegionPart.chars ha), fold_part (RegionPart.chars (RegionPart.upper ha)),
        lower_upper (RegionPart.chars ha)]
  have e3 : (vs.map foldTag).Perm (ws.map foldTag) := by
    have : vs.map foldTag = (vs.map lower).map foldTag := by
      rw [List.map_map]
      refine List.map_congr_left fun v hvm => ?_
      have := hv v hvm
      simp [fold_part this.1, fold_part (VariantPart.lower this).1, lower_lower]
    rw [this]
    exact (h.map foldTag).symm
  simp only [List.map_append, e1, e2]
  exact e3.append_left _

theorem sameParts_text {q : Str} {x : Identifier} (h : parse q = .ok x) : SameParts q x.text := by
  obtain ⟨l, s, r, vs, hp⟩ := parsed h
  refine ⟨l, x.language, _, _, (parts_iff _ _).2 hp.shape.parts, hp.text_parts.1, ?_, ?_⟩
  · rw [hp.language, fold_part (LanguagePart.chars hp.shape.language),
      fold_part (LanguagePart.chars (LanguagePart.lower hp.shape.language)), lower_lower]
  · rw [hp.script, hp.region]
    exact fold_perm_parts hp.shape.script hp.shape.region hp.shape.variants hp.variants

theorem SameParts.symm {q q' : Str} (h : SameParts q q') : SameParts q' q := by
  obtain ⟨l, l', ps, ps', h1, h2, h3, h4⟩ := h
  exact ⟨l', l, ps', ps, h2, h1, h3.symm, h4.symm⟩

theorem SameParts.trans {a b c : Str} (h : SameParts a b) (h' : SameParts b c) : SameParts a c := by
  obtain ⟨l, l', ps, ps', h1, h2, h3, h4⟩ := h
  obtain ⟨m, m', qs, qs', g1, g2, g3, g4⟩ := h'
  have := (subtags_of_parts h2).symm.trans (subtags_of_parts g1)
  cases this
  exact ⟨l, m', ps, qs', h1, g2, h3.trans g3, h4.trans g4⟩

/-- Kinds of parts, seen without letter case. -/
theorem filter_parts {s r : Option Str} {vs : List Str} (hs : ∀ a ∈ s, ScriptPart a) (hr : ∀ a ∈ r, RegionPart a)
    (hv : ∀ a ∈ vs, VariantPart a) :
    ((s.toList ++ r.toList ++ vs).map foldTag).filter (fun p => (script? p).isSome) = s.toList.map foldTag ∧
    ((s.toList ++ r.toList ++ vs).map foldTag).filter (fun p => (region? p).isSome) = r.toList.map foldTag ∧
    ((s.toList ++ r.toList ++ vs).map foldTag).filter (fun p => (variant? p).isSome) = vs.map foldTag := by
  have low : ∀ {a : Str}, ScriptPart a → ScriptPart (lower a) := by
    intro a ha
    refine ⟨by simpa [Tag.lower] using ha.1, ?_⟩
    intro c hc
    obtain ⟨d, hd, rfl⟩ := mem_lower hc
    exact letter_toLower (ha.2 d hd)
  have lowr : ∀ {a : Str}, RegionPart a → RegionPart (lower a) := by
    intro a ha
    rcases ha with ha | ha
    · refine .inl ⟨by simpa [Tag.lower] using ha.1, ?_⟩
      intro c hc
      obtain ⟨d, hd, rfl⟩ := mem_lower hc
      exact letter_toLower (ha.2 d hd)
    · refine .inr ⟨by simpa [Tag.lower] using ha.1, ?_⟩
      intro c hc
      obtain ⟨d, hd, rfl⟩ := mem_lower hc
      exact digit_toLower (ha.2 d hd)
  have fs : ∀ p ∈ s.toList.map foldTag, ScriptPart p := by
    intro p hp
    obtain ⟨a, ha, rfl⟩ := List.mem_map.1 hp
    have ha := hs a (by simpa using ha)
    rw [fold_part (ScriptPart.chars ha)]; exact low ha
  have fr : ∀ p ∈ r.toList.map foldTag, RegionPart p := by
    intro p hp
    obtain ⟨a, ha, rfl⟩ := List.mem_map.1 hp
    have ha := hr a (by simpa using ha)
    rw [fold_part (RegionPart.chars ha)]; exact lowr ha
  have fv : ∀ p ∈ vs.map foldTag, VariantPart p := by
    intro p hp
    obtain ⟨a, ha, rfl⟩ := List.mem_map.1 hp
    have ha := hv a ha
    rw [fold_part ha.1]; exact VariantPart.lower ha
  have all : ∀ {f : Str → Bool} {xs : List Str}, (∀ p ∈ xs, f p = true) → xs.filter f = xs := by
    intro f xs h; exact List.filter_eq_self.2 h
  have non : ∀ {f : Str → Bool} {xs : List Str}, (∀ p ∈ xs, f p = false) → xs.filter f = [] := by
    intro f xs h; exact List.filter_eq_nil_iff.2 (fun p hp => by simp [h p hp])
  simp only [List.map_append, List.filter_append]
  refine ⟨?_, ?_, ?_⟩
  · rw [all fun p hp => by simp [script_some (fs p hp)], non fun p hp => by simp [script_none (region_not_script (fr p hp))],
      non fun p hp => by simp [script_none (variant_not_script (fv p hp))]]
    simp
  · rw [non fun p hp => by simp [region_none fun h => region_not_script h (fs p hp)],
      all fun p hp => by simp [region_some (fr p hp)], non fun p hp => by simp [region_none (variant_not_region (fv p hp))]]
    simp
  · rw [non fun p hp => by simp [variant_none fun h => variant_not_script h (fs p hp)],
      non fun p hp => by simp [variant_none fun h => variant_not_region h (fr p hp)],
      all fun p hp => by simp [variant_some (fv p hp)]]
    simp

theorem option_fold {P : Str → Prop} (hP : ∀ a, P a → ∀ c ∈ a, Letter c ∨ Digit c) {s t : Option Str} (hs : ∀ a ∈ s, P a)
    (ht : ∀ a ∈ t, P a) (h : (s.toList.map foldTag).Perm (t.toList.map foldTag)) : s.map lower = t.map lower := by
  cases s with
  | none =>
    cases t with
    | none => rfl
    | some b => exact absurd h.length_eq (by simp)
  | some a =>
    cases t with
    | none => exact absurd h.length_eq (by simp)
    | some b =>
      simp only [Option.toList_some, List.map_cons, List.map_nil, List.perm_singleton, List.cons.injEq, and_true] at h
      rw [fold_part (hP a (hs a rfl)), fold_part (hP b (ht b rfl))] at h
      simp [h]

/-- Canonical tags with the same parts are equal. -/
theorem canonical_unique {q q' : Str} {x x' : Identifier} (h : parse q = .ok x) (h' : parse q' = .ok x')
    (hs : SameParts q q') : x = x' := by
  obtain ⟨l, s, r, vs, hp⟩ := parsed h
  obtain ⟨l', s', r', vs', hp'⟩ := parsed h'
  obtain ⟨m, m', ps, ps', h1, h2, h3, h4⟩ := hs
  have e1 := (subtags_of_parts h1).symm.trans hp.shape.parts
  have e2 := (subtags_of_parts h2).symm.trans hp'.shape.parts
  cases e1
  cases e2
  rw [fold_part (LanguagePart.chars hp.shape.language), fold_part (LanguagePart.chars hp'.shape.language)] at h3
  obtain ⟨f1, f2, f3⟩ := filter_parts hp.shape.script hp.shape.region hp.shape.variants
  obtain ⟨g1, g2, g3⟩ := filter_parts hp'.shape.script hp'.shape.region hp'.shape.variants
  have p1 := h4.filter (fun p => (script? p).isSome)
  have p2 := h4.filter (fun p => (region? p).isSome)
  have p3 := h4.filter (fun p => (variant? p).isSome)
  rw [f1, g1] at p1
  rw [f2, g2] at p2
  rw [f3, g3] at p3
  have q1 := option_fold (P := ScriptPart) (fun a => ScriptPart.chars) hp.shape.script hp'.shape.script p1
  have q2 := option_fold (P := RegionPart) (fun a => RegionPart.chars) hp.shape.region hp'.shape.region p2
  have k1 : x.script = x'.script := by
    rw [hp.script, hp'.script]
    cases s with
    | none => cases s' with
      | none => rfl
      | some b => simp at q1
    | some a => cases s' with
      | none => simp at q1
      | some b =>
        simp only [Option.map_some, Option.some.injEq] at *
        exact title_of_lower (ScriptPart.chars (hp.shape.script a rfl)) (ScriptPart.chars (hp'.shape.script b rfl)) q1
  have k2 : x.region = x'.region := by
    rw [hp.region, hp'.region]
    cases r with
    | none => cases r' with
      | none => rfl
      | some b => simp at q2
    | some a => cases r' with
      | none => simp at q2
      | some b =>
        simp only [Option.map_some, Option.some.injEq] at *
        exact upper_of_lower (RegionPart.chars (hp.shape.region a rfl)) (RegionPart.chars (hp'.shape.region b rfl)) q2
  have k3 : x.variants = x'.variants := by
    rw [List.map_congr_left fun v hv => fold_part (hp.shape.variants v hv).1,
      List.map_congr_left fun v hv => fold_part (hp'.shape.variants v hv).1] at p3
    exact perm_sorted hp.sorted hp'.sorted ((hp.variants.trans p3).trans hp'.variants.symm)
  have k0 : x.language = x'.language := by rw [hp.language, hp'.language, h3]
  cases x; cases x'
  simp only at k0 k1 k2 k3
  simp [k0, k1, k2, k3]

/-! ### Letter case does not matter -/

theorem class_toLower (c : Char) : c.toLower.isAlpha = c.isAlpha ∧ c.toLower.isDigit = c.isDigit ∧
    c.toLower.isAlphanum = c.isAlphanum := by
  by_cases h : c.isUpper = true
  · exact alphanum (P := fun c => c.toLower.isAlpha = c.isAlpha ∧ c.toLower.isDigit = c.isDigit ∧
      c.toLower.isAlphanum = c.isAlphanum) (by decide) (upper_alphanum h)
  · rw [toLower_of_not_upper (by simpa using h)]
    simp

theorem letters_lower (s : Str) : letters (lower s) = letters s := by
  unfold letters lower
  rw [List.all_map]
  exact congrArg (s.all ·) (funext fun c => (class_toLower c).1)
theorem digits_lower (s : Str) : digits (lower s) = digits s := by
  unfold digits lower
  rw [List.all_map]
  exact congrArg (s.all ·) (funext fun c => (class_toLower c).2.1)
theorem alphanumeric_lower (s : Str) : alphanumeric (lower s) = alphanumeric s := by
  unfold alphanumeric lower
  rw [List.all_map]
  exact congrArg (s.all ·) (funext fun c => (class_toLower c).2.2)

theorem length_lower (s : Str) : (lower s).length = s.length := by simp [lower]

theorem part_lower (s : Str) : language? (lower s) = language? s ∧ script? (lower s) = script? s ∧
    region? (lower s) = region? s ∧ variant? (lower s) = variant? s := by
  have hs : ∀ {t : Str}, (∀ c ∈ t, Letter c ∨ Digit c) → ∀ c ∈ lower t, Letter c ∨ Digit c := by
    intro t h c hc
    obtain ⟨d, hd, rfl⟩ := mem_lower hc
    exact (h d hd).imp letter_toLower digit_toLower
  refine ⟨?_, ?_, ?_, ?_⟩
  · unfold language?
    rw [length_lower, letters_lower, lower_lower]
  · by_cases h : ScriptPart s
    · have h' : ScriptPart (lower s) := ⟨by rw [length_lower]; exact h.1, (letters_iff _).1 (by
        rw [letters_lower]; exact (letters_iff s).2 h.2)⟩
      rw [script_some h, script_some h', title_of_lower (ScriptPart.chars h') (ScriptPart.chars h) (lower_lower s)]
    · have h' : ¬ ScriptPart (lower s) := fun x => h ⟨by rw [← length_lower]; exact x.1, (letters_iff _).1 (by
        rw [← letters_lower]; exact (letters_iff _).2 x.2)⟩
      rw [script_none h, script_none h']
  · have hiff : RegionPart (lower s) ↔ RegionPart s := by
      rw [← region_cond, ← region_cond, length_lower, letters_lower, digits_lower]
    by_cases h : RegionPart s
    · rw [region_some h, region_some (hiff.2 h),
        upper_of_lower (RegionPart.chars (hiff.2 h)) (RegionPart.chars h) (lower_lower s)]
    · rw [region_none h, region_none fun x => h (hiff.1 x)]
  · unfold variant?
    have : ((lower s).take 1).all Char.isDigit = (s.take 1).all Char.isDigit := by
      cases s with
      | nil => rfl
      | cons c rest => simp [lower, (class_toLower c).2.1]
    rw [length_lower, alphanumeric_lower, lower_lower, this]

theorem parseRest_lower (ss : List Str) : ∀ (p : Position) (x : Identifier),
    parseRest p x (ss.map lower) = parseRest p x ss := by
  induction ss with
  | nil => intro p x; rfl
  | cons s ss ih =>
    intro p x
    obtain ⟨_, h2, h3, h4⟩ := part_lower s
    cases p <;> simp only [List.map_cons, parseRest, h2, h3, h4, ih]

theorem subtags_fold (q : Str) : subtags (foldTag q) = (subtags q).map lower := by
  have hfold : ∀ {s : Str}, (∀ c ∈ s, c ≠ '-' ∧ c ≠ '_') → foldTag s = lower s := by
    intro s h
    unfold foldTag lower
    exact List.map_congr_left fun c hc => by simp [(h c hc).2]
  have hplain : ∀ {s : Str}, (∀ c ∈ s, c ≠ '-' ∧ c ≠ '_') → ∀ c ∈ lower s, c ≠ '-' ∧ c ≠ '_' := by
    intro s h c hc
    obtain ⟨d, hd, rfl⟩ := mem_lower hc
    by_cases hu : d.isUpper = true
    · exact separator_false.1 (not_separator (by
        rw [(class_toLower d).2.2]; exact upper_alphanum hu))
    · rw [toLower_of_not_upper (by simpa using hu)]; exact h d hd
  have hp := parts_subtags q
  generalize subtags q = ps at hp
  induction hp with
  | one h => rw [hfold h, List.map_cons, List.map_nil, subtags_one (hplain h)]
  | @more s q ps c h hc _ ih =>
    have : foldTag (s ++ c :: q) = lower s ++ '-' :: foldTag q := by
      rw [← hfold h]
      unfold foldTag
      rw [List.map_append, List.map_cons]
      rcases hc with rfl | rfl
      · rfl
      · rfl
    rw [this, subtags_more (hplain h) (.inl rfl), ih, List.map_cons]

/-- The parser does not see letter case nor which separator is used. -/
theorem parse_fold (q : Str) : parse (foldTag q) = parse q := by
  unfold parse
  rw [subtags_fold]
  cases h : subtags q with
  | nil => exact absurd h (subtags_ne_nil q)
  | cons s rest => simp only [List.map_cons, (part_lower s).1, parseRest_lower]

theorem canonicalize_fold {q q' : Str} (h : foldTag q = foldTag q') : canonicalize q = canonicalize q' := by
  unfold canonicalize
  rw [← parse_fold q, h, parse_fold q']

/-! ### Characters of canonical tags -/

theorem mem_join {ps : List Str} {c : Char} (h : c ∈ join ps) : c = '-' ∨ ∃ p ∈ ps, c ∈ p := by
  induction ps with
  | nil => cases h
  | cons p ps ih =>
    cases ps with
    | nil => exact .inr ⟨p, by simp, h⟩
    | cons a as =>
      rw [join_cons (by simp)] at h
      rcases List.mem_append.1 h with h | h
      · exact .inr ⟨p, by simp, h⟩
      · rcases List.mem_cons.1 h with h | h
        · exact .inl h
        · rcases ih h with h | ⟨q, hq, h⟩
          · exact .inl h
          · exact .inr ⟨q, by simp [hq], h⟩

theorem canonical_chars {t : Str} (h : CanonicalTag t) : ∀ c ∈ t, c = '-' ∨ Letter c ∨ Digit c := by
  obtain ⟨l, s, r, vs, hp, hu, h1, h2, h3, h4, _⟩ := h
  intro c hc
  rw [← join_parts hp hu] at hc
  rcases mem_join hc with h | ⟨p, hp, hcp⟩
  · exact .inl h
  · simp only [List.mem_cons, List.mem_append, Option.mem_toList] at hp
    rcases hp with rfl | (hp | hp) | hp
    · exact .inr (LanguagePart.chars h1 c hcp)
    · exact .inr (ScriptPart.chars (h2 p hp) c hcp)
    · exact .inr (RegionPart.chars (h3 p hp) c hcp)
    · exact .inr ((h4 p hp).1 c hcp)

theorem canonical_noWildcards {t : Str} (h : CanonicalTag t) : NoWildcards t := by
  have hno : ∀ c : Char, c.isAlphanum = false → c ≠ '-' → c ∉ t := by
    intro c hc hne hm
    rcases canonical_chars h c hm with h | h
    · exact hne h
    · rw [(alphanum_iff c).1 h] at hc; cases hc
  exact ⟨hno _ (by decide) (by decide), hno _ (by decide) (by decide)⟩

/-! ### Shorter tags -/

theorem subtags_append {t rest : Str} : subtags (t ++ '-' :: rest) = subtags t ++ subtags rest := by
  have hp := parts_subtags t
  generalize subtags t = ps at hp
  induction hp with
  | one h => rw [subtags_more h (.inl rfl)]; rfl
  | more c h hc _ ih => rw [List.append_assoc, List.cons_append, subtags_more h hc, ih]; rfl

theorem prefix_option {α : Type} {a : Option α} {xs ys : List α} (h : ys <+: a.toList ++ xs) :
    ∃ b : Option α, ∃ zs, ys = b.toList ++ zs ∧ (∀ x ∈ b, x ∈ a) ∧ zs <+: xs := by
  cases a with
  | none => exact ⟨none, ys, rfl, by simp, by simpa using h⟩
  | some a =>
    cases ys with
    | nil => exact ⟨none, [], rfl, by simp, List.nil_prefix⟩
    | cons y ys =>
      simp only [Option.toList_some, List.cons_append, List.nil_append, List.cons_prefix_cons] at h
      exact ⟨some y, ys, rfl, by simp [h.1], h.2⟩

theorem canonical_truncation {t tag : Str} (h : CanonicalTag tag) (ht : Truncation t tag) : CanonicalTag t := by
  rcases ht.2 with rfl | ⟨rest, e⟩
  · exact h
  · obtain ⟨l, s, r, vs, hp, hu, h1, h2, h3, h4, c1, c2, c3, c4, hs⟩ := h
    have hsub := subtags_of_parts hp
    rw [e, subtags_append] at hsub
    have hu' : '_' ∉ t := fun hm => hu (by rw [e]; simp [hm])
    cases hst : subtags t with
    | nil => exact absurd hst (subtags_ne_nil t)
    | cons l' ps =>
      rw [hst, List.cons_append, List.cons.injEq] at hsub
      obtain ⟨rfl, hsub⟩ := hsub
      have hpre : ps <+: s.toList ++ (r.toList ++ vs) := by
        rw [← List.append_assoc, ← hsub]; exact List.prefix_append _ _
      obtain ⟨s', ps1, rfl, hs', hpre⟩ := prefix_option hpre
      obtain ⟨r', vs', rfl, hr', hpre⟩ := prefix_option hpre
      have hv' : ∀ v ∈ vs', v ∈ vs := fun v hv => hpre.subset hv
      refine ⟨l', s', r', vs', ?_, hu', h1, fun x hx => h2 x (hs' x hx), fun x hx => h3 x (hr' x hx),
        fun x hx => h4 x (hv' x hx), c1, fun x hx => c2 x (hs' x hx), fun x hx => c3 x (hr' x hx),
        fun x hx => c4 x (hv' x hx), ?_⟩
      · rw [parts_iff, hst, List.append_assoc]
      · exact hs.sublist hpre.sublist

/-! ### Extensions -/

theorem extension_error {q : Str} (h : HasExtension q) : ∃ e, canonicalize q = .error e := by
  cases hc : canonicalize q with
  | error e => exact ⟨e, rfl⟩
  | ok c =>
    exfalso
    obtain ⟨ps, hp, p, hm, hl⟩ := h
    obtain ⟨x, hx, _⟩ := canonicalize_ok hc
    obtain ⟨l, s, r, vs, hp', h1, h2, h3, h4, _⟩ := (parse_iff q).1 ⟨x, hx⟩
    have := (subtags_of_parts hp).symm.trans (subtags_of_parts hp')
    rw [this] at hm
    simp only [List.mem_cons, List.mem_append, Option.mem_toList] at hm
    rcases hm with rfl | (hm | hm) | hm
    · rcases h1.1 with h | h <;> omega
    · have := (h2 p hm).1; omega
    · rcases h3 p hm with h | h <;> omega
    · rcases (h4 p hm).2 with h | h <;> omega

theorem calendar_extension (a b : Str) : HasExtension (a ++ "-u-ca-".toList ++ b) := by
  refine ⟨_, parts_subtags _, ['u'], ?_, rfl⟩
  have : a ++ "-u-ca-".toList ++ b = a ++ '-' :: (['u'] ++ '-' :: ("ca-".toList ++ b)) := by simp
  rw [this, subtags_append, subtags_append]
  simp [subtags, isSeparator]

theorem findSub_some {pat s : Str} {n : Nat} (h : findSub pat s = some n) : ∃ a b, s = a ++ pat ++ b := by
  induction s generalizing n with
  | nil =>
    unfold findSub at h
    split at h
    · next e => exact ⟨[], [], by simp [e]⟩
    · cases h
  | cons c cs ih =>
    unfold findSub at h
    split at h
    · next hp =>
      obtain ⟨b, hb⟩ := List.isPrefixOf_iff_prefix.1 hp
      exact ⟨[], b, by simp [hb]⟩
    · cases hf : findSub pat cs with
      | none => simp [hf] at h
      | some m =>
        obtain ⟨a, b, e⟩ := ih hf
        exact ⟨c :: a, b, by simp [e]⟩

end Verif.TagLemmas
