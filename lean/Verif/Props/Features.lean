import Verif.Lemmas.Features
import Verif.Props.Format
/-
C71 and C72: which code the features of the crates select.
-/
namespace Verif.Props
open Verif Verif.Features Verif.Spec Verif.Spec.Features Verif.FeatureLemmas

variable {D F : Type}

/-- The resolver of the model enables what Cargo enables. -/
theorem C71_resolver (request : List Feature) (f : Feature) : (build request).enabled f = true ↔ Enabled request f := by
  simp only [build, List.contains_iff_mem]
  exact resolve_iff

/-- A valid request enables declared features only: no feature refers to one that does not exist. The names `blob`, `fs` and
`extend` in `cfg` attributes therefore are never enabled. -/
theorem C71_only_declared {request : List Feature} (h : Valid request) {f : Feature}
    (hf : (build request).enabled f = true) : f ∈ declared := by
  obtain ⟨r, hr, hc⟩ := build_causes.1 hf
  rw [mem_causes, mem_resolve_one] at hc
  have key : ∀ r ∈ declared, ∀ f ∈ rounds 4 [r], f ∈ declared := by decide +kernel
  exact key r (h r hr) f hc

example : ∃ f, (build [(.i18n, .logging)]).enabled f = true ∧ f ≠ (.i18n, .logging) :=
  ⟨(.sqlite3, .logging), by decide +kernel, by decide⟩

/-! ### C71 -/

/-- The dependency of the documentation, `i18n-rizzen-yazston = "0.10.1"`, /repo/README.asciidoc:50-53. -/
def defaultRequest : List Feature := [(.i18n, .default)]

/-- **C71 is violated.** With the default features the provider of compiled data exists, but no formatter is made from it:
the attribute is that of another crate. The features for the other two providers do not provide them: the attributes name
features that do not exist. -/
theorem C71_violated :
    (build defaultRequest).variants = [.internal] ∧ ¬ Usable (build defaultRequest) .internal ∧
    (build [(.i18n, .icuBlob)]).variants = [] ∧ (build [(.i18n, .icuFs)]).variants = [] ∧
    ¬ Usable (build [(.localiser, .default)]) .internal := by
  refine ⟨by decide +kernel, fun h => ?_, by decide +kernel, by decide +kernel, fun h => ?_⟩
  · exact absurd h.2.2 (by decide +kernel)
  · exact absurd h.2.2 (by decide +kernel)

/-- **C71, what holds.** In every build, the providers that can be used are: the compiled data, if `icu_compiled_data` is
asked for by that name of `i18n` or `i18n_localiser`; nothing else. Missing: the default, `icu_blob` and `icu_fs`, for which
the claim is false. -/
theorem C71_usable_iff_partial {request : List Feature} (h : Valid request) (k : ProviderKind) :
    Usable (build request) k ↔
      k = .internal ∧ ((.i18n, .icuCompiledData) ∈ request ∨ (.localiser, .icuCompiledData) ∈ request) := by
  have hoff : ∀ c : Crate, (build request).enabled (c, .blob) = false ∧ (build request).enabled (c, .fs) = false := by
    intro c
    constructor
    · refine build_undeclared h ?_ ?_ <;> cases c <;> decide +kernel
    · refine build_undeclared h ?_ ?_ <;> cases c <;> decide +kernel
  have harm : (build request).arm .internal = true ↔
      ((.i18n, .icuCompiledData) ∈ request ∨ (.localiser, .icuCompiledData) ∈ request) := by
    show (build request).enabled _ = true ↔ _
    rw [build_causes, show causes (.localiser, ProviderKind.internal.gate) =
      [(.i18n, .icuCompiledData), (.localiser, .icuCompiledData)] by decide +kernel]
    constructor
    · rintro ⟨r, hr, hm⟩
      simp only [List.mem_cons, List.not_mem_nil, or_false] at hm
      rcases hm with rfl | rfl
      · exact .inl hr
      · exact .inr hr
    · rintro (hr | hr)
      · exact ⟨_, hr, by simp⟩
      · exact ⟨_, hr, by simp⟩
  have hvar : (build request).arm .internal = true → (build request).enabled (.lexer, .icuCompiledData) = true := by
    intro ha
    have := harm.1 ha
    rw [build_causes]
    rcases this with hr | hr
    · exact ⟨_, hr, by decide +kernel⟩
    · exact ⟨_, hr, by decide +kernel⟩
  constructor
  · rintro ⟨_, _, h3⟩
    cases k with
    | internal => exact ⟨rfl, harm.1 h3⟩
    | blob => exact absurd h3 (by rw [show (build request).arm .blob = _ from (hoff .localiser).1]; decide)
    | fs => exact absurd h3 (by rw [show (build request).arm .fs = _ from (hoff .localiser).2]; decide)
  · rintro ⟨rfl, hr⟩
    have ha := harm.2 hr
    have hv := hvar ha
    refine ⟨?_, fun load _ => ?_, ha⟩
    · simp [Build.variants, ProviderKind.gate, hv]
    · simp [Build.icuTryNew, hv]

/-- The provider can be made exactly if compiled data are asked for, of any of the three crates or by a default; the checks
at the end of `try_new` never fail. -/
theorem C71_provider_exists {request : List Feature} (h : Valid request) (k : ProviderKind) :
    (k ∈ (build request).variants ↔ k = .internal ∧ ∃ r ∈ request, r ∈ [(.i18n, .default), (.i18n, .icuCompiledData),
      (.lexer, .default), (.lexer, .icuCompiledData), (.localiser, .default), (.localiser, .icuCompiledData)]) ∧
    (k ∈ (build request).variants → ∀ load, (build request).icuTryNew load k = .ok k) := by
  have hoff : (build request).enabled (.lexer, .blob) = false ∧ (build request).enabled (.lexer, .fs) = false :=
    ⟨build_undeclared h (by decide +kernel) (by decide +kernel), build_undeclared h (by decide +kernel) (by decide +kernel)⟩
  have hi : (build request).enabled (.lexer, .icuCompiledData) = true ↔ ∃ r ∈ request, r ∈ [(.i18n, .default),
      (.i18n, .icuCompiledData), (.lexer, .default), (.lexer, .icuCompiledData), (.localiser, .default),
      (.localiser, .icuCompiledData)] := by
    rw [build_causes, show causes (.lexer, .icuCompiledData) = [(.i18n, .default),
      (.i18n, .icuCompiledData), (.lexer, .default), (.lexer, .icuCompiledData), (.localiser, .default),
      (.localiser, .icuCompiledData)] by decide +kernel]
  rw [← hi]
  cases k with
  | internal =>
    refine ⟨by simp [Build.variants, ProviderKind.gate], fun hk load => ?_⟩
    have : (build request).enabled (.lexer, .icuCompiledData) = true := by
      simpa [Build.variants, ProviderKind.gate] using hk
    simp [Build.icuTryNew, this]
  | blob => simp [Build.variants, ProviderKind.gate, hoff]
  | fs => simp [Build.variants, ProviderKind.gate, hoff]

/-- Were there builds with other sets of features, the checks at the end of `try_new` would not fail in them either: a provider
of a variant that exists is made exactly if ICU4X loads it, and the compiled data always. -/
theorem C71_try_new (b : Build) (load : ProviderKind → Bool) (k : ProviderKind) (hk : k ∈ b.variants) :
    b.icuTryNew load k = if k = .internal ∨ load k = true then .ok k else .error .icu := by
  cases k with
  | internal =>
    have : b.enabled (.lexer, .icuCompiledData) = true := by simpa [Build.variants, ProviderKind.gate] using hk
    simp [Build.icuTryNew, this]
  | blob =>
    have : b.enabled (.lexer, .blob) = true := by simpa [Build.variants, ProviderKind.gate] using hk
    cases hl : load .blob <;> simp [Build.icuTryNew, this, hl]
  | fs =>
    have : b.enabled (.lexer, .fs) = true := by simpa [Build.variants, ProviderKind.gate] using hk
    cases hl : load .fs <;> simp [Build.icuTryNew, this, hl]

/-- With all features a file that does not load is an error of ICU4X. -/
example : (⟨fun _ => true⟩ : Build).icuTryNew (fun _ => false) .blob = .error .icu :=
  C71_try_new _ _ _ (by decide)

/-- **C71, how it fails.** In a build where the localiser has no formatters for the provider (the default build is one), a
string in which a number, date, plural or ordinal pattern is reached has no text, whatever the values, the language and the
history. -/
theorem C71_no_text_partial {request : List Feature} {k : ProviderKind} (hk : (build request).arm k = false)
    (X : ProviderKind → Icu4x D F) (E : FmtEnv D F) (hE : E.icu4x = (build request).icu4x X k)
    {s tag lang : Str} {d : Doc} {f : Formatter}
    (hd : Reads E s d) (hf : Formatter.tryNew E s tag (some lang) = .ok f) (values : AMap Str (PValue D F))
    (history : List (AMap Str (PValue D F))) (hh : Ended E lang d history) {id kw sels}
    (hr : Reached E lang values d (.pat id (some (kw, sels)))) (hkw : kw.str ∈ needsData) (r : Str × Str) :
    ((after E f history).format E values).1 ≠ .ok r := by
  intro h
  obtain ⟨h1, h2⟩ := C48_format_gives_the_meaning E hd hf history hh values
  cases hy : (d.eval E lang values (d.storeAfter E lang history)).1 with
  | none => have := (h2 hy).1; rw [h] at this; cases this
  | some o =>
    have := h1 o hy
    rw [h] at this
    cases o with
    | err _ => simp [tagged, forget, Outcome.mapErr] at this
    | panic => simp [tagged, forget, Outcome.mapErr] at this
    | ok t =>
      obtain ⟨L, self, st', s', _, h'⟩ := FormatLemmas.eval_reached (accepted_ok hd hf) hy hr
      simp only [needsData, List.mem_cons, List.not_mem_nil, or_false] at hkw
      cases hv : values.get id.str with
      | none => simp [evalItem, hv] at h'
      | some v =>
        obtain ⟨k1, _⟩ := FormatLemmas.kw_ne
        have hX : E.icu4x = { X k with
            decimal := fun _ _ => .error .noIcuProvider
            dateTime := fun _ _ _ => .error .noIcuProvider
            date := fun _ _ => .error .noIcuProvider
            time := fun _ _ => .error .noIcuProvider
            cardinal := fun _ => .error .noIcuProvider
            ordinal := fun _ => .error .noIcuProvider } := by
          rw [hE, Build.icu4x, hk]; rfl
        have hm : ∀ a b, showMoment E.icu4x lang a b = none := by
          intro a b
          rw [hX]
          cases a <;> cases b <;> rfl
        rcases hkw with e | e | e | e
        · simp [evalItem, hv, e, showDecimal, hX, ofOption, Except.toOption] at h'
        · simp only [evalItem, hv, e, k1, if_false, if_true] at h'
          have : ∀ v, showDateTime E.icu4x lang v = .err () := by
            intro v
            cases v <;> simp [showDateTime, hm, ofOption]
          simp [this] at h'
        · simp [evalItem, hv, e, evalPlural, hX] at h'
        · simp [evalItem, hv, e, evalPlural, hX] at h'

/-- The default build: the string with a plural pattern is read and accepted, and its plural pattern is reached; so it has
no text. -/
def defaultEnv : FmtEnv Nat Unit :=
  { Demo.env with icu4x := (build defaultRequest).icu4x (fun _ => Demo.icu4x) .internal }

example (values : AMap Str (PValue Nat Unit)) :
    (build defaultRequest).arm .internal = false ∧ Reads defaultEnv Demo.dogs Demo.dogsDoc ∧
    (∃ f, Formatter.tryNew defaultEnv Demo.dogs "en".toList (some "en".toList) = .ok f) ∧
    Reached defaultEnv "en".toList values Demo.dogsDoc
      (.pat (Demo.lf 1) (some (Demo.lf 3, [(Demo.lf 5, Demo.lf 7), (Demo.lf 9, Demo.lf 11)]))) ∧
    (Demo.lf 3).str ∈ needsData := by
  refine ⟨by decide +kernel, Demo.dogs_reads, ?_, .main (by simp [Demo.dogsDoc]), by decide +kernel⟩
  have h : (match Formatter.tryNew defaultEnv Demo.dogs "en".toList (some "en".toList) with
    | .ok _ => true | _ => false) = true := by decide +kernel
  cases hf : Formatter.tryNew defaultEnv Demo.dogs "en".toList (some "en".toList) with
  | ok f => exact ⟨f, rfl⟩
  | err e => rw [hf] at h; cases h
  | panic => rw [hf] at h; cases h

/-! ### C72 -/

/-- **C72 is violated.** A program that asks `sync` of the crate `i18n_utility` only, besides the whole library, gets a
localiser with `Rc` and a registry of `Arc`. -/
theorem C72_violated : Valid [(.i18n, .default), (.utility, .sync)] ∧
    ¬ SamePointers (build [(.i18n, .default), (.utility, .sync)]) ∧
    (build [(.i18n, .default), (.utility, .sync)]).arc .utility = true ∧
    (build [(.i18n, .default), (.utility, .sync)]).arc .localiser = false := by
  refine ⟨by unfold Valid; decide, ?_, by decide +kernel, by decide +kernel⟩
  unfold SamePointers
  decide +kernel

/-- **C72, what holds.** In every build, all crates have the same pointer type if and only if `sync` is asked for of no
crate, or of `i18n` or `i18n_localiser`. Missing: requests for `sync` of other crates only, for which the claim is false. -/
theorem C72_same_pointers_partial (request : List Feature) : SamePointers (build request) ↔
    (∀ c, (c, Name.sync) ∉ request) ∨ (.i18n, .sync) ∈ request ∨ (.localiser, .sync) ∈ request := by
  have h : ∀ c, (build request).arc c = true ↔ ∃ r ∈ request, r ∈ causes (c, .sync) := fun c => build_causes
  have hloc : (build request).arc .localiser = true ↔ (.i18n, .sync) ∈ request ∨ (.localiser, .sync) ∈ request := by
    rw [h, show causes (.localiser, .sync) = [(.i18n, .sync), (.localiser, .sync)] by decide +kernel]
    constructor
    · rintro ⟨r, hr, hm⟩
      simp only [List.mem_cons, List.not_mem_nil, or_false] at hm
      rcases hm with rfl | rfl
      · exact .inl hr
      · exact .inr hr
    · rintro (hr | hr)
      · exact ⟨_, hr, by simp⟩
      · exact ⟨_, hr, by simp⟩
  have hu : (build request).arc .utility = true ↔ ∃ c, (c, Name.sync) ∈ request := by
    rw [h, show causes (.utility, .sync) = [(.i18n, .sync), (.lexer, .sync), (.localiser, .sync), (.provider, .sync),
      (.sqlite3, .sync), (.utility, .sync)] by decide +kernel]
    constructor
    · rintro ⟨r, hr, hm⟩
      simp only [List.mem_cons, List.not_mem_nil, or_false] at hm
      rcases hm with rfl | rfl | rfl | rfl | rfl | rfl <;> exact ⟨_, hr⟩
    · rintro ⟨c, hr⟩
      exact ⟨_, hr, by cases c <;> simp⟩
  have hall : (build request).arc .localiser = true →
      ∀ c ∈ [Crate.lexer, .localiser, .provider, .sqlite3, .utility], (build request).arc c = true := by
    intro hl c hc
    rw [h]
    have key : ∀ x : Crate, x ∈ [Crate.i18n, .localiser] → ∀ c ∈ [Crate.lexer, .localiser, .provider, .sqlite3, .utility],
        (x, Name.sync) ∈ causes (c, .sync) := by decide +kernel
    rcases hloc.1 hl with hr | hr
    · exact ⟨_, hr, key .i18n (by simp) c hc⟩
    · exact ⟨_, hr, key .localiser (by simp) c hc⟩
  have hcause : ∀ c ∈ [Crate.lexer, .localiser, .provider, .sqlite3, .utility], (build request).arc c = true →
      (build request).arc .utility = true := by
    intro c hc ha
    rw [h] at ha ⊢
    obtain ⟨r, hr, hm⟩ := ha
    have key : ∀ c ∈ [Crate.lexer, .localiser, .provider, .sqlite3, .utility], ∀ r ∈ causes (c, .sync),
        r ∈ causes (.utility, .sync) := by decide +kernel
    exact ⟨r, hr, key c hc r hm⟩
  constructor
  · intro hs
    by_cases hany : ∃ c, (c, Name.sync) ∈ request
    · have := hs .localiser (by simp)
      rw [hu.2 hany] at this
      exact .inr (hloc.1 this)
    · exact .inl fun c hc => hany ⟨c, hc⟩
  · rintro (hno | hyes)
    · have hf : (build request).arc .utility = false := by
        cases hb : (build request).arc .utility with
        | false => rfl
        | true => obtain ⟨c, hc⟩ := hu.1 hb; exact absurd hc (hno c)
      intro c hc
      rw [hf]
      cases hb : (build request).arc c with
      | false => rfl
      | true => rw [hcause c hc hb] at hf; cases hf
    · have hl := hloc.2 hyes
      intro c hc
      rw [hall hl c hc, hall hl .utility (by simp)]

/-! ### The types of language tags -/

/-- C65 for every build: whatever features are asked for, of whatever crates, the registry and the formatter parse language
identifiers. -/
theorem C65_every_build {request : List Feature} (h : Valid request) :
    (build request).registryType = .languageIdentifier ∧ (build request).formatterType = .languageIdentifier := by
  have h1 : (build request).enabled (.utility, .extend) = false :=
    build_undeclared h (by decide +kernel) (by decide +kernel)
  have h2 : (build request).enabled (.localiser, .extend) = false :=
    build_undeclared h (by decide +kernel) (by decide +kernel)
  simp [Build.registryType, Build.formatterType, h1, h2]

/-- The scripts of languages, in contrast, are looked up with locales if `icu_extended` is asked for. -/
theorem C65_script_type (request : List Feature) : (build request).scriptType = .locale ↔
    (.i18n, .icuExtended) ∈ request ∨ (.localiser, .icuExtended) ∈ request := by
  have key : (build request).enabled (.localiser, .icuExtended) = true ↔
      (.i18n, .icuExtended) ∈ request ∨ (.localiser, .icuExtended) ∈ request := by
    rw [build_causes, show causes (.localiser, .icuExtended) = [(.i18n, .icuExtended), (.localiser, .icuExtended)] by
      decide +kernel]
    constructor
    · rintro ⟨r, hr, hm⟩
      simp only [List.mem_cons, List.not_mem_nil, or_false] at hm
      rcases hm with rfl | rfl
      · exact .inl hr
      · exact .inr hr
    · rintro (hr | hr)
      · exact ⟨_, hr, by simp⟩
      · exact ⟨_, hr, by simp⟩
  rw [← key, Build.scriptType]
  generalize (build request).enabled (.localiser, .icuExtended) = x
  cases x <;> simp

end Verif.Props
