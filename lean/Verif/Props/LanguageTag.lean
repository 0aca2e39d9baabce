import Verif.Lemmas.LanguageTag
import Verif.Props.Registry
import Verif.Props.ProviderLocaliser
/-
Property theorems C63–C66: language tags, as the registry of /repo/crates/utility/src/language.rs gets them from
`icu_locid` (reference model Verif/Model/LanguageTag.lean), and what other properties become with it.
-/
namespace Verif.Props
open Verif Verif.Tag Verif.TagLemmas
open Verif.Spec hiding lower
open Verif.RegistryLemmas (Idem)

/-! ### C63 -/

/-- **C63.** A tag is accepted exactly if it is well formed. -/
theorem C63_accepted_iff_well_formed (q : Str) : (∃ c, canonicalize q = .ok c) ↔ WellFormedTag q := by
  rw [← parse_iff]
  unfold canonicalize
  constructor
  · rintro ⟨c, h⟩
    split at h
    · next x hx => exact ⟨x, hx⟩
    · cases h
  · rintro ⟨x, hx⟩
    exact ⟨x.text, by rw [hx]⟩

/-- **C63, the answer.** The tag given is canonical and has the same parts as the one asked for. -/
theorem C63_canonical {q c : Str} (h : canonicalize q = .ok c) : CanonicalTag c ∧ SameParts q c := by
  refine ⟨canonicalize_canonical h, ?_⟩
  obtain ⟨x, hx, rfl⟩ := canonicalize_ok h
  exact sameParts_text hx

/-- **C63, canonical tags are kept.** -/
theorem C63_canonical_kept {t : Str} (h : CanonicalTag t) : canonicalize t = .ok t := canonicalize_fixed h

/-- What C06–C10 ask of the canonicaliser holds of this one. -/
theorem C63_idempotent : Idem canonicalize := fun _ _ h => canonicalize_fixed (canonicalize_canonical h)

example : canonicalize "SL_latn-si-rozaj-1994-NEDIS".toList = .ok "sl-Latn-SI-1994-nedis-rozaj".toList := by decide +kernel
example : canonicalize "en-ZA-za".toList = .error .invalidSubtag := by decide +kernel
example : canonicalize "de-1996-1996".toList = .error .invalidSubtag := by decide +kernel

example : WellFormedTag "en_za".toList ∧ ¬ WellFormedTag "engl".toList :=
  ⟨(C63_accepted_iff_well_formed _).1 ⟨_, (by decide +kernel : canonicalize "en_za".toList = .ok "en-ZA".toList)⟩,
    fun h => by
      obtain ⟨c, hc⟩ := (C63_accepted_iff_well_formed _).2 h
      have : canonicalize "engl".toList = .error .invalidLanguage := by decide +kernel
      rw [this] at hc; cases hc⟩

/-! ### C64 -/

/-- **C64.** Two accepted spellings have the same canonical tag exactly if they have the same parts. -/
theorem C64_same_parts {q q' c c' : Str} (h : canonicalize q = .ok c) (h' : canonicalize q' = .ok c') :
    c = c' ↔ SameParts q q' := by
  obtain ⟨x, hx, rfl⟩ := canonicalize_ok h
  obtain ⟨x', hx', rfl⟩ := canonicalize_ok h'
  constructor
  · intro e
    exact SameParts.trans (sameParts_text hx) (by rw [e]; exact SameParts.symm (sameParts_text hx'))
  · intro hs
    rw [canonical_unique hx hx' hs]

/-- **C64, in the registry.** In every history, two successful requests get the same object exactly if they have the same
parts. -/
theorem C64_same_object (history : List Str) {q q' : Str} {t t' : TagRef}
    (h : (q, .ok t) ∈ (Registry.new.run canonicalize history).1)
    (h' : (q', .ok t') ∈ (Registry.new.run canonicalize history).1) : t.addr = t'.addr ↔ SameParts q q' := by
  have hcanon : ∀ {q : Str} {t : TagRef}, (q, .ok t) ∈ (Registry.new.run canonicalize history).1 →
      ∃ c, canonicalize q = .ok c := by
    intro q t h
    cases hc : canonicalize q with
    | ok c => exact ⟨c, rfl⟩
    | error e =>
      have := (C06_canonical_in_every_history canonicalize C63_idempotent history q _ h).2 e hc
      cases this
  obtain ⟨c, hc⟩ := hcanon h
  obtain ⟨c', hc'⟩ := hcanon h'
  rw [(C07_interned canonicalize C63_idempotent history q q' t t' h h').1, hc, hc', ← C64_same_parts hc hc']
  exact ⟨fun e => by cases e; rfl, fun e => by rw [e]⟩

/-- **C64, letter case and separators.** They do not matter, not even for the error. -/
theorem C64_case_and_separators {q q' : Str} (h : foldTag q = foldTag q') : canonicalize q = canonicalize q' :=
  canonicalize_fold h

example : let history := ["en_za".toList, "sl-rozaj-nedis".toList, "EN-ZA".toList, "SL_nedis_ROZAJ".toList, "en-za-x".toList]
    ((Registry.new.run canonicalize history).1.map fun x => x.2.toOption.map TagRef.addr) =
      [some 0, some 1, some 0, some 1, none] := by decide +kernel

/-! ### C65 -/

/-- **C65 is violated**: whatever features are chosen and whatever `Locale` accepts, in every history the registry rejects
every tag with an extension. The documentation says that with the feature `icu_extended` the tags of `Locale` are used. -/
theorem C65_violated (features : List Feature) (locale : Str → Except ParserError Str) (history : List Str) {q : Str}
    (h : HasExtension q) {a : Except ParserError TagRef}
    (ha : (q, a) ∈ (Registry.new.run (icuCanonicalize features locale) history).1) : ∃ e, a = .error e := by
  have hf : icuCanonicalize features locale = canonicalize := by
    unfold icuCanonicalize
    have : enabled features "extend".toList = false := by
      unfold enabled
      rw [List.any_eq_false]
      intro f _
      cases f <;> decide
    rw [this]; rfl
  obtain ⟨e, he⟩ := extension_error h
  rw [hf] at ha
  exact ⟨e, (C06_canonical_in_every_history canonicalize C63_idempotent history q a ha).2 e he⟩

/-- **C65, what holds.** Without extensions the features do not matter. -/
theorem C65_features_do_not_matter_partial (features : List Feature) (locale : Str → Except ParserError Str) (q : Str) :
    icuCanonicalize features locale q = canonicalize q := by
  unfold icuCanonicalize
  have : enabled features "extend".toList = false := by
    unfold enabled
    rw [List.any_eq_false]
    intro f _
    cases f <;> decide
  rw [this]; rfl

/-- **C65, which names there are.** The two names that are declared are enabled exactly by their features, and no other name ever
is; the type is chosen by another name. -/
theorem C65_names (features : List Feature) (name : Str) : enabled features name = true ↔
    (name = "sync".toList ∧ .sync ∈ features) ∨ (name = "icu_extended".toList ∧ .icuExtended ∈ features) := by
  unfold enabled
  simp only [List.any_eq_true, decide_eq_true_eq]
  constructor
  · rintro ⟨f, hm, rfl⟩
    cases f with
    | sync => exact .inl ⟨rfl, hm⟩
    | icuExtended => exact .inr ⟨rfl, hm⟩
  · rintro (⟨rfl, hm⟩ | ⟨rfl, hm⟩)
    · exact ⟨_, hm, rfl⟩
    · exact ⟨_, hm, rfl⟩

/-- With every feature and a `Locale` that accepts everything. -/
example : HasExtension "th-TH-u-ca-buddhist".toList ∧
    (Registry.new.tag (icuCanonicalize [.icuExtended, .sync] fun q => .ok q) "th-TH-u-ca-buddhist".toList).1 =
      .error .invalidSubtag :=
  ⟨⟨_, parts_subtags _, "u".toList, by decide, rfl⟩, by decide +kernel⟩

/-! ### C66 -/

/-- **C66.** Whatever the look-up drops from the end of a tag of the registry, what remains is a tag of the registry: it is
canonical, so the registry keeps it as it is. -/
theorem C66_shorter_tags_are_tags {q c t : Str} (h : canonicalize q = .ok c) (ht : Truncation t c) :
    CanonicalTag t ∧ canonicalize t = .ok t :=
  have hc := canonical_truncation (canonicalize_canonical h) ht
  ⟨hc, canonicalize_fixed hc⟩

/-- **C66, no wildcards.** No tag of the registry has a character that means something in a `LIKE` pattern, which the
theorems on the look-up ask of the tags (`NoWildcards`). -/
theorem C66_no_wildcards {q c : Str} (h : canonicalize q = .ok c) : NoWildcards c :=
  canonical_noWildcards (canonicalize_canonical h)

example : canonicalize "SL_latn-si-rozaj".toList = .ok "sl-Latn-SI-rozaj".toList ∧
    Truncation "sl-Latn".toList "sl-Latn-SI-rozaj".toList :=
  ⟨by decide +kernel, by decide, .inr ⟨"SI-rozaj".toList, by decide⟩⟩

/-! ### Other properties with this canonicaliser -/

/-- The tag is canonical but for letter case. -/
def CanonicalButCase (tag : Str) : Prop := ∃ t, CanonicalTag t ∧ Verif.Spec.lower t = Verif.Spec.lower tag

theorem canonicalButCase {tag t : Str} (h : CanonicalTag t) (e : Verif.Spec.lower t = Verif.Spec.lower tag) :
    canonicalize tag = .ok t := by
  rw [← canonicalize_fixed h]
  apply canonicalize_fold
  have hfold : ∀ s : Str, '_' ∉ Verif.Spec.lower s → foldTag s = Verif.Spec.lower s := by
    intro s hs
    unfold foldTag Verif.Spec.lower
    refine List.map_congr_left fun c hc => ?_
    by_cases h : c = '_'
    · subst h
      exact absurd (List.mem_map.2 ⟨'_', hc, by decide⟩) hs
    · simp [h]
  have hno : '_' ∉ Verif.Spec.lower t := by
    intro hm
    obtain ⟨c, hc, hl⟩ := List.mem_map.1 hm
    rcases canonical_chars h c hc with rfl | h
    · exact absurd hl (by decide)
    · have := alphanum (P := fun c => c.toLower ≠ '_') (by decide) ((alphanum_iff c).1 h)
      exact this hl
  rw [hfold t hno, hfold tag (e ▸ hno), e]

/-- **C55 with this canonicaliser.** If the tags in the store are canonical but for letter case, the tag reported with a
string returns it. No condition on the canonicaliser is left. -/
theorem C55_canonical_store_partial {p : Sqlite} (hc : Connected p) {st : Verif.Store} {c : Str} {files : Bool × Bool}
    (h : p.components.get c = some files) {rows : Str → List PatternRow}
    (hr : ∀ name ∈ places files c, (st name).pattern = .ok (rows name))
    (ht : ∀ name ∈ places files c, ∀ r ∈ rows name, CanonicalButCase r.tag) (i : Str) {q tag : Str}
    (hq : canonicalize q = .ok tag) (s t : Str) (hs : p.string canonicalize st c i tag = .ok (some (s, t))) :
    p.string canonicalize st c i t = .ok (some (s, t)) := by
  refine C55_reported_tag_returns_it_partial hc h (rows := rows) ?_ ?_ i tag (C66_no_wildcards hq) s t hs
  · intro name hn
    refine ⟨hr name hn, fun r hm => ?_⟩
    obtain ⟨t, h1, h2⟩ := ht name hn r hm
    exact ⟨t, canonicalButCase h1 h2⟩
  · intro name hn r hm t' ht'
    obtain ⟨t, h1, h2⟩ := ht name hn r hm
    rw [canonicalButCase h1 h2] at ht'
    cases ht'
    exact ⟨h2, canonical_noWildcards h1⟩

open DemoStore in
/-- The tags need not be spelt as the registry does. -/
example : let st := DemoStore.store [] [row "EN-za".toList howzit, row en hello]
    (provider (false, true)).string canonicalize st app greeting "en-GB".toList = .ok (some (howzit, enZA)) ∧
    CanonicalButCase "EN-za".toList ∧ CanonicalButCase en :=
  ⟨by decide +kernel, ⟨enZA, canonicalize_canonical (q := "EN-za".toList) (by decide +kernel), by decide⟩,
    ⟨en, canonicalize_canonical (q := en) (by decide +kernel), rfl⟩⟩

open DemoStore in
/-- **C55 is violated with this canonicaliser too**: a tag stored with an underscore is reported with a hyphen, and under that
tag another string is found. -/
theorem C55_violated_by_underscore :
    let st := DemoStore.store [] [row "en_ZA".toList howzit, row enZA hello]
    (provider (false, true)).string canonicalize st app greeting en = .ok (some (howzit, enZA)) ∧
    (provider (false, true)).string canonicalize st app greeting enZA = .ok (some (hello, enZA)) := by
  constructor <;> decide +kernel

/-- **C46 with this canonicaliser.** The `unwrap` of the parsed identifier never fails for a tag that the registry gave. -/
theorem C46_never_panics (history : List Str) (asked : List TagRef)
    (hgiven : ∀ t ∈ asked, ∃ q, (q, .ok t) ∈ (Registry.new.run canonicalize history).1) (t : TagRef)
    (a : Option (Nat × Identifier))
    (h : (t, a) ∈ (IcuCache.run (fun q => (parse q).toOption) { entries := [], nextAddr := 0 } asked).1) (hm : t ∈ asked) :
    ∃ n x, a = some (n, x) ∧ x.text = t.text := by
  obtain ⟨q, hq⟩ := hgiven t hm
  have hc : CanonicalTag t.text := by
    cases hcq : canonicalize q with
    | error e =>
      have := (C06_canonical_in_every_history canonicalize C63_idempotent history q _ hq).2 e hcq
      cases this
    | ok c =>
      obtain ⟨t', e, ht'⟩ := (C06_canonical_in_every_history canonicalize C63_idempotent history q _ hq).1 c hcq
      cases e
      rw [ht']
      exact canonicalize_canonical hcq
  obtain ⟨x, hx, htx⟩ := canonical_fixed hc
  have := (C46_icu_language_cached (fun q => (parse q).toOption) asked t t a a h h).1
  simp only [hx, Except.toOption] at this
  cases a with
  | none => cases this
  | some v =>
    obtain ⟨n, y⟩ := v
    simp only [Option.map_some, Option.some.injEq] at this
    exact ⟨n, y, rfl, by rw [this, htx]⟩

/-! ### Calendars -/

/-- **C19, calendars.** Even if the value of the option were read: no calendar is accepted for any language, since the text
of the locale for it is read as a language identifier without extensions. `X.parseLocale` reads as the canonicaliser does. -/
theorem C19_no_calendar_accepted {D F : Type} (X : Icu4x D F)
    (hX : ∀ s, (∃ l, X.parseLocale s = .ok l) → ∃ c, canonicalize s = .ok c) {lang : Str} (hl : CanonicalTag lang)
    (placeholder value : Str) (options : AMap Str Str) (h : ("calendar".toList, value) ∈ options) :
    ∀ d t c r, dateTimeOptions X lang placeholder options d t c ≠ .ok r := by
  have hlocale : calendarLocale lang value = lang ++ "-u-ca-".toList ++ value := by
    unfold calendarLocale
    cases hf : findSub "-u-ca-".toList lang with
    | none => simp
    | some n =>
      obtain ⟨a, b, e⟩ := findSub_some hf
      obtain ⟨e', he'⟩ := extension_error (calendar_extension a b)
      rw [← e, canonicalize_fixed hl] at he'
      cases he'
  have hrej : ∃ e, X.parseLocale (calendarLocale lang value) = .error e := by
    cases hp : X.parseLocale (calendarLocale lang value) with
    | error e => exact ⟨e, rfl⟩
    | ok l =>
      obtain ⟨c, hc⟩ := hX _ ⟨l, hp⟩
      obtain ⟨e', he'⟩ := extension_error (calendar_extension lang value)
      rw [hlocale, he'] at hc
      cases hc
  obtain ⟨e, he⟩ := hrej
  induction options with
  | nil => cases h
  | cons o rest ih =>
    obtain ⟨key, v⟩ := o
    intro d t c r
    unfold dateTimeOptions
    rcases List.mem_cons.1 h with hh | hh
    · cases hh
      rw [if_neg (by decide), if_neg (by decide), if_pos rfl]
      split
      · simp
      · rw [he]
        simp [liftE]
    · split
      · intro hok
        cases hfl : fmtLength "date".toList v with
        | ok x => rw [hfl] at hok; exact ih hh _ _ _ _ hok
        | err x => rw [hfl] at hok; cases hok
        | panic => rw [hfl] at hok; cases hok
      · split
        · intro hok
          cases hfl : fmtLength "time".toList v with
          | ok x => rw [hfl] at hok; exact ih hh _ _ _ _ hok
          | err x => rw [hfl] at hok; cases hok
          | panic => rw [hfl] at hok; cases hok
        · split
          · split
            · simp
            · intro hok
              cases hfl : X.parseLocale (calendarLocale lang v) with
              | ok x => rw [hfl] at hok; exact ih hh _ _ _ _ hok
              | error x => rw [hfl] at hok; cases hok
          · simp

/-- The language is canonical, and the calendar is one of those listed. -/
example : CanonicalTag "th-TH".toList ∧ calendars.contains "buddhist".toList ∧
    calendarLocale "th-TH".toList "buddhist".toList = "th-TH-u-ca-buddhist".toList ∧
    canonicalize "th-TH-u-ca-buddhist".toList = .error .invalidSubtag :=
  ⟨canonicalize_canonical (q := "th-TH".toList) (by decide +kernel), by decide, by decide +kernel, by decide +kernel⟩

end Verif.Props
