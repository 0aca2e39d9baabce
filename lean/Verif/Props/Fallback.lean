import Verif.Spec.Fallback
import Verif.Props.EndToEnd
import Verif.Props.ProviderExact
import Verif.Props.ProviderDetails
/-
Property theorems C95: in which language a stored string is shown, through provider, registry, localiser and formatter.
-/
namespace Verif.Props
open Verif Verif.FormatLemmas Verif.LocaliserLemmas Verif.ProviderLemmas
open Verif.Tag (canonicalize)
open Verif.Spec

variable {D F P S : Type}

theorem stocked_holds {p : Sqlite} {st : Verif.Store} {rows : Str → List PatternRow} (hs : Stocked p st rows) {c : Str}
    {files : Bool × Bool} (h : p.components.get c = some files) : Holds canonicalize st (places files c) rows := by
  intro name hn
  refine ⟨hs.read c files h name hn, fun r hr => ?_⟩
  obtain ⟨t, ht, e⟩ := hs.tags name r hr
  exact ⟨t, canonicalButCase ht e⟩

theorem nothing_longest {rows : List PatternRow} {c i tag : Str} (h : NothingFor rows c i tag) {found : List PatternRow}
    (hl : Longest rows c i false tag found) : found = [] := by
  refine hl.unique (.none fun t ht => ?_)
  rw [rowsAt, List.filter_eq_nil_iff]
  intro r hr hd
  simp only [Bool.false_eq_true, if_false, decide_eq_true_eq] at hd
  exact h t ht r hr hd.1 hd.2

/-- The provider gives the string with the less specific tag. -/
theorem storedLess_string {p : Sqlite} (hc : Connected p) {st : Verif.Store} {rows : Str → List PatternRow}
    (hs : Stocked p st rows) {q tag : Str} (hq : canonicalize q = .ok tag) {c i s shown : Str} (hcan : CanonicalTag shown)
    (h : StoredLess p rows c i tag shown s) : (asProvider canonicalize p st).string c i tag = .ok (some (s, shown)) := by
  obtain ⟨files, asked, name, others, before, r, after, h1, h2, h3, h4, h5, h6, rfl, h8, h9, h10⟩ := h
  have hw := C66_no_wildcards hq
  obtain ⟨found, xs, g1, g2, g3⟩ := oneString_decides hc (i := i) (tag := tag) h1 false (stocked_holds hs h1) fun _ => hw
  have hat : rowsAt (rows name) c i false shown = r :: rowsAt after c i false shown := by
    have hb : before.filter (fun r => decide (For c i r ∧ if false = true then r.tag = shown else Begins shown r.tag)) = [] := by
      rw [List.filter_eq_nil_iff]
      intro r' hr' hd
      simp only [Bool.false_eq_true, if_false, decide_eq_true_eq] at hd
      exact h10 r' hr' hd.1 hd.2
    unfold rowsAt
    rw [h4, List.filter_append, hb, List.filter_cons]
    have : Begins shown r.tag := by unfold Begins; rw [h6]; exact List.prefix_rfl
    simp [h5, this]
  have hl : Longest (rows name) c i false tag (rowsAt (rows name) c i false shown) := by
    refine .at shown h8 (by rw [hat]; simp) fun t ht hlt => ?_
    rw [rowsAt, List.filter_eq_nil_iff]
    intro r' hr' hd
    simp only [Bool.false_eq_true, if_false, decide_eq_true_eq] at hd
    exact h9 t ht hlt r' hr' hd.1 hd.2
  have hfound : found = r :: rowsAt after c i false shown := by
    rw [h2] at g1
    clear h2
    induction asked with
    | nil =>
      cases g1 with
      | here g1 _ => rw [g1.unique hl, hat]
      | later g1 _ =>
        have := g1.unique hl
        rw [hat] at this
        cases this
    | cons n ns ih =>
      cases g1 with
      | here g1 hne => exact absurd (nothing_longest (h3 n (by simp)) g1) hne
      | later _ g1 => exact ih (fun n hn => h3 n (by simp [hn])) g1
  rw [hfound] at g2
  have g2 : AllGive canonicalize [r] xs := by simpa [limit] using g2
  cases g2 with
  | @cons _ x _ _ hg g2 =>
    obtain ⟨x1, x2⟩ := x
    have e1 : x1 = r.string := hg.1
    have e2 : canonicalize r.tag = .ok x2 := hg.2
    rw [canonicalButCase hcan h6.symm] at e2
    cases e2
    have g3 : p.string canonicalize st c i tag = .ok (some (r.string, shown)) := by rw [← e1]; exact g3
    simp only [asProvider, if_pos hw, g3]

/-- The provider gives no string. -/
theorem nowhere_string {p : Sqlite} (hc : Connected p) {st : Verif.Store} {rows : Str → List PatternRow}
    (hs : Stocked p st rows) {q tag : Str} (hq : canonicalize q = .ok tag) {c i : Str} (h : Nowhere p rows c i tag) :
    (asProvider canonicalize p st).string c i tag = .ok none := by
  obtain ⟨files, h1, h2⟩ := h
  have hw := C66_no_wildcards hq
  rcases C35_found_unless_none_matches hc h1 (stocked_holds hs h1) i tag hw with ⟨g, _⟩ | ⟨x, name, r, t, _, hn, hr, hf, ht, hb, _⟩
  · simp only [asProvider, if_pos hw, g]
  · exact absurd hb (h2 name hn t ht r hr hf)

/-- The provider gives the default language as stored. -/
theorem defaultLanguage_default {p : Sqlite} (hc : Connected p) (hk : p.components.keys.Nodup) {st : Verif.Store}
    {details : AMap Str ComponentDetails} {repo : RepositoryDetails} (hb : p.buildCache canonicalize st = .ok (details, repo))
    {c d : Str} (h : DefaultLanguage canonicalize p st c d) : (asProvider canonicalize p st).default c = .ok d := by
  obtain ⟨files, table, asked, name, others, r, h1, h2, h3, h4, h5, h6⟩ := h
  have hget : ∃ x, details.get c = some x := by
    rw [← AMap.mem_keys_iff, (buildCache_ok hk hb).2.1, AMap.mem_keys_iff]
    exact ⟨files, h1⟩
  obtain ⟨x, hx⟩ := hget
  obtain ⟨asked', name', others', r', g1, g2, g3, g4⟩ := C52_default_language hc hk hb h1 hx h2
  have key : ∀ {l : List ComponentRow} {r}, (l.filter fun r => r.identifier = c).getLast? = some r →
      ¬ ∀ r ∈ l, r.identifier ≠ c := by
    intro l r hl hn
    have := List.mem_filter.1 (List.mem_of_getLast? hl)
    exact hn r this.1 (by simpa using this.2)
  have hname : name = name' := by
    rw [h3] at g1
    clear h3
    induction asked generalizing asked' with
    | nil =>
      cases asked' with
      | nil => simp at g1; exact g1.1
      | cons n ns =>
        simp at g1
        exact absurd (g2 name (by simp [g1.1])) (key h5)
    | cons n ns ih =>
      cases asked' with
      | nil =>
        simp at g1
        exact absurd (h4 name' (by simp [g1.1])) (key g3)
      | cons n' ns' =>
        simp at g1
        exact ih (fun n hn => h4 n (by simp [hn])) ns' g1.2 fun n hn => g2 n (by simp [hn])
  subst hname
  rw [h5] at g3
  cases g3
  rw [h6] at g4
  cases g4
  simp only [asProvider, hb, hx]

/-- What a request for a string that is found shows, if nothing is cached for it. -/
theorem found_shown {L : LocEnv D F P} (hE : Standard L.fmt) (hsp : L.fmt.icu.whiteSpace ' ' = true) {k : Composition}
    (hkc : Composed L.fmt.icu k) {c i tag shown : Str} {fallback : Bool}
    (hf : Found L.provider c i tag fallback (.ok (k.written, shown))) {lang : Str} (hlang : L.icuLanguage shown = some lang)
    (scriptOf : Str → S) (l : Localiser S) (hn : NotCached l.cache c i tag) (values : AMap Str (PValue D F))
    (fb ca : Option Bool) (hfb : fb.getD l.fallback = fallback) (x : Str × Str) :
    let answer := (l.call L scriptOf (.format c i values (some tag) fb ca)).1
    let meant := k.Accepted L.fmt ∧ ∃ t, k.shown L.fmt lang values = some (.ok t) ∧ x = (t, shown)
    (answer = some (.ok x) → meant) ∧
      (meant → answer = some (.ok x) ∨ answer = some .panic ∧ ca.getD l.caching = true ∧
        (AMap.get l.cache tag).isSome = true ∧ AMap.get l.cache shown = none) := by
  intro answer meant
  subst hfb
  have ha : answer = some (actualFormat L l.cache c i values tag (fb.getD l.fallback) (ca.getD l.caching)).1 := rfl
  obtain ⟨r, _, h2, h3⟩ := C32_fallback_order L l.cache c i tag (fb.getD l.fallback) (ca.getD l.caching) values hn
  rw [← h2 _ hf] at h3
  have h3 := h3.2
  rw [hlang] at h3
  have hm : (formatString L.fmt k.written shown (some lang) values).mapErr (LocErr.formatter (P := P)) = .ok x ↔ meant := by
    show _ ↔ k.Accepted L.fmt ∧ ∃ t, k.shown L.fmt lang values = some (.ok t) ∧ x = (t, shown)
    rw [← C88_formatter hE hsp hkc]
    cases formatString L.fmt k.written shown (some lang) values <;> simp [Outcome.mapErr]
  rw [ha]
  refine ⟨fun h => ?_, fun h => ?_⟩
  · have h := Option.some.inj h
    rcases h3 with h3 | ⟨_, h3⟩
    · exact hm.1 (h3 ▸ h)
    · rw [h3] at h; cases h
  · rcases h3 with h3 | ⟨hc, h3⟩
    · exact .inl (congrArg some (h3.trans (hm.2 h)))
    · refine .inr ⟨congrArg some h3, hc, ?_⟩
      rcases C30_format_panics_only_partial L l.cache c i tag values _ _ h3 with
        ⟨_, m, s, t, g1, _, g2, g3⟩ | ⟨m, f, g1, g2, _⟩ | ⟨s, t, g1, g2⟩
      · have : Outcome.ok (s, t) = .ok (k.written, shown) := (h2 _ g2).trans (h2 _ hf).symm
        cases this
        exact ⟨by rw [g1]; rfl, g3⟩
      · rw [hn m g1] at g2
        cases g2
      · have : Outcome.ok (s, t) = .ok (k.written, shown) := (h2 _ g1).trans (h2 _ hf).symm
        cases this
        have hm := hm.2 h
        rw [← hlang, g2] at hm
        cases hm

/-- **C95, a less specific language.** A pattern is stored for the requested tag with subtags dropped from its end, and
nothing for fewer dropped. Then the first request shows exactly what the pattern means in that language, with its tag,
with or without fallback; except that the localiser may panic (C30) if it caches and its cache has something for the
requested language and nothing for the other. In particular a new localiser does not. -/
theorem C95_less_specific {path : PathKind} {p : Sqlite} (hopen : Sqlite.tryNew path = .ok p) {st : Verif.Store}
    {rows : Str → List PatternRow} (hs : Stocked p st rows) {q tag : Str} (hq : canonicalize q = .ok tag) {c i shown : Str}
    (hcan : CanonicalTag shown) {k : Composition} (hk : StoredLess p rows c i tag shown k.written)
    (L : LocEnv D F (Option (ProvErr Tag.ParserError)))
    (hL : L.provider = asProvider canonicalize p st) (hE : Standard L.fmt) (hsp : L.fmt.icu.whiteSpace ' ' = true)
    (hkc : Composed L.fmt.icu k) {lang : Str} (hlang : L.icuLanguage shown = some lang) (scriptOf : Str → S)
    (l : Localiser S) (hn : NotCached l.cache c i tag) (values : AMap Str (PValue D F)) (fb ca : Option Bool)
    (x : Str × Str) :
    let answer := (l.call L scriptOf (.format c i values (some tag) fb ca)).1
    let meant := k.Accepted L.fmt ∧ ∃ t, k.shown L.fmt lang values = some (.ok t) ∧ x = (t, shown)
    (answer = some (.ok x) → meant) ∧
      (meant → answer = some (.ok x) ∨ answer = some .panic ∧ ca.getD l.caching = true ∧
        (AMap.get l.cache tag).isSome = true ∧ AMap.get l.cache shown = none) := by
  have hst := storedLess_string (C39_connections_available hopen).1 hs hq hcan hk
  rw [← hL] at hst
  exact found_shown hE hsp hkc (.requested hst) hlang scriptOf l hn values fb ca rfl x

/-- **C95, the default language.** Nothing is stored for the requested tag or one with subtags dropped from its end, and
fallback is on. If a pattern is stored for the default language of the component, as above, the first request shows exactly
what it means in that language, with its tag. -/
theorem C95_default_language {path : PathKind} {p : Sqlite} (hopen : Sqlite.tryNew path = .ok p) {st : Verif.Store}
    {rows : Str → List PatternRow} (hs : Stocked p st rows) {details : AMap Str ComponentDetails} {repo : RepositoryDetails}
    (hb : p.buildCache canonicalize st = .ok (details, repo)) {q tag : Str} (hq : canonicalize q = .ok tag)
    {c i d shown : Str} (hno : Nowhere p rows c i tag) (hd : DefaultLanguage canonicalize p st c d)
    (hcan : CanonicalTag shown) {k : Composition} (hk : StoredLess p rows c i d shown k.written)
    (L : LocEnv D F (Option (ProvErr Tag.ParserError)))
    (hL : L.provider = asProvider canonicalize p st) (hE : Standard L.fmt) (hsp : L.fmt.icu.whiteSpace ' ' = true)
    (hkc : Composed L.fmt.icu k) {lang : Str} (hlang : L.icuLanguage shown = some lang) (scriptOf : Str → S)
    (l : Localiser S) (hn : NotCached l.cache c i tag) (values : AMap Str (PValue D F)) (fb ca : Option Bool)
    (hfb : fb.getD l.fallback = true) (x : Str × Str) :
    let answer := (l.call L scriptOf (.format c i values (some tag) fb ca)).1
    let meant := k.Accepted L.fmt ∧ ∃ t, k.shown L.fmt lang values = some (.ok t) ∧ x = (t, shown)
    (answer = some (.ok x) → meant) ∧
      (meant → answer = some (.ok x) ∨ answer = some .panic ∧ ca.getD l.caching = true ∧
        (AMap.get l.cache tag).isSome = true ∧ AMap.get l.cache shown = none) := by
  obtain ⟨hc, hkeys, _⟩ := C39_connections_available hopen
  have h1 := nowhere_string hc hs hq hno
  have h2 := defaultLanguage_default hc hkeys hb hd
  obtain ⟨_, _, _, _, _, r, _, _, _, _, _, hr⟩ := hd
  have h3 := storedLess_string hc hs hr hcan hk
  rw [← hL] at h1 h2 h3
  exact found_shown hE hsp hkc (.default h1 h2 h3) hlang scriptOf l hn values fb ca hfb x

/-- **C95, nothing.** Nothing is stored for the requested tag or one with subtags dropped from its end. Without fallback the
request is answered with the error that names the string and the tag; and with fallback too, if nothing is stored for
the default language either. The error says whether fallback was on, and nothing is cached. -/
theorem C95_not_found {path : PathKind} {p : Sqlite} (hopen : Sqlite.tryNew path = .ok p) {st : Verif.Store}
    {rows : Str → List PatternRow} (hs : Stocked p st rows) {details : AMap Str ComponentDetails} {repo : RepositoryDetails}
    (hb : p.buildCache canonicalize st = .ok (details, repo)) {q tag : Str} (hq : canonicalize q = .ok tag)
    {c i : Str} (hno : Nowhere p rows c i tag) (L : LocEnv D F (Option (ProvErr Tag.ParserError)))
    (hL : L.provider = asProvider canonicalize p st) (scriptOf : Str → S)
    (l : Localiser S) (hn : NotCached l.cache c i tag) (values : AMap Str (PValue D F)) (fb ca : Option Bool)
    (h : fb.getD l.fallback = true → ∃ d, DefaultLanguage canonicalize p st c d ∧ Nowhere p rows c i d) :
    l.call L scriptOf (.format c i values (some tag) fb ca) =
      (some (.err (.stringNotFound c i tag (fb.getD l.fallback))), l) := by
  obtain ⟨hc, hkeys, _⟩ := C39_connections_available hopen
  have h1 := nowhere_string hc hs hq hno
  rw [← hL] at h1
  have hf : Found L.provider c i tag (fb.getD l.fallback) (.err (.stringNotFound c i tag (fb.getD l.fallback))) := by
    cases hx : fb.getD l.fallback with
    | false => exact .missing h1
    | true =>
      obtain ⟨d, hd, hno'⟩ := h hx
      have h2 := defaultLanguage_default hc hkeys hb hd
      obtain ⟨_, _, _, _, _, r, _, _, _, _, _, hr⟩ := hd
      have h3 := nowhere_string hc hs hr hno'
      rw [← hL] at h2 h3
      exact .missingDefault h1 h2 h3
  obtain ⟨r, _, e1, e2⟩ := C32_fallback_order L l.cache c i tag (fb.getD l.fallback) (ca.getD l.caching) values hn
  rw [← e1 _ hf] at e2
  have e2 := e2.2
  simp only [Localiser.call, Option.getD_some]
  rw [e2]

/-! The examples: `dogs` is stored for `af`, `en` and `en-ZA`; the default language is `en`. -/

namespace DemoFallback
open DemoStored

def stock : Verif.Store := fun name =>
  ⟨.ok (rows name), .ok [⟨app, "en".toList, "Ann".toList⟩], .ok [⟨app, "EN".toList⟩]⟩

theorem stocked : Stocked opened stock rows := ⟨fun _ _ _ _ _ => rfl, DemoStored.stocked.tags⟩

def env : LocEnv Nat Unit (Option (ProvErr Tag.ParserError)) where
  fmt := Demo.env
  provider := asProvider canonicalize opened stock
  icuLanguage := some

/-- Truncations are looked at one by one. -/
theorem truncations {tag : Str} {Q : Str → Prop}
    (h : ∀ n < tag.length + 1, n ≠ 0 → (tag[n]? = none ∨ tag[n]? = some '-') → Q (tag.take n)) :
    ∀ t, Truncation t tag → Q t := by
  intro t ht
  have hn : t.length ≠ 0 := fun h => ht.1 (List.length_eq_zero_iff.1 h)
  have := h t.length (by have := truncation_length ht; omega) hn
  rcases ht.2 with rfl | ⟨rest, rfl⟩
  · simpa using this
  · simpa using this

theorem en : CanonicalTag "en".toList := TagLemmas.canonicalize_canonical (q := "en".toList) (by decide +kernel)

theorem longer_gb : ∀ t, Truncation t "en-GB".toList → "en".toList.length < t.length → ∀ r ∈ rows app, For app dogs r →
    ¬ Begins t r.tag :=
  truncations fun n hn h0 he => by
    have h3 : n ≠ 3 := by
      rintro rfl
      exact absurd he (by decide)
    have : ∀ n < 6, 3 < n → ∀ r ∈ rows app, For app dogs r → ¬ Begins ("en-GB".toList.take n) r.tag := by decide +kernel
    intro hl
    exact this n hn (by simp at hl; omega)

theorem accepted : pattern.Accepted Demo.env :=
  (docOk_pieces Demo.env (reads_meant Demo.dogs_reads)).1 DemoStored.accepted

theorem none_af : Nowhere opened rows app dogs "fr-CA".toList :=
  ⟨(false, true), by decide, fun name hn => by
    have : name = app := List.mem_singleton.1 hn
    subst this
    exact truncations (by decide +kernel)⟩

theorem cats {tag : Str} : Nowhere opened rows app "cats".toList tag :=
  ⟨(false, true), by decide, fun name hn => by
    have : name = app := List.mem_singleton.1 hn
    subst this
    intro t _ r hr hf
    have : ∀ r ∈ rows app, ¬ For app "cats".toList r := by decide +kernel
    exact absurd hf (this r hr)⟩

theorem default_en : DefaultLanguage canonicalize opened stock app "en".toList :=
  ⟨(false, true), fun _ => [⟨app, "EN".toList⟩], [], app, [], _, by decide, fun _ _ => rfl, rfl, nofun, rfl, by decide +kernel⟩

def l : Localiser Unit := ⟨[], false, true, "af".toList, ()⟩

/-- British English is asked for, English is shown. -/
example : (l.call env (fun _ => ()) (.format app dogs (Demo.vals [("n", .inr 3)]) (some "en-GB".toList) none (some false))).1 =
    some (.ok ("3 dogs".toList, "en".toList)) := by
  have h := (C95_less_specific opens stocked (q := "EN-gb".toList) (tag := "en-GB".toList) (by decide +kernel) en (k := pattern)
    ⟨(false, true), [], app, [], [⟨app, dogs, "af".toList, "honde".toList⟩], _, _, by decide, by decide, nofun, rfl, ⟨rfl, rfl⟩,
      rfl, rfl, ⟨by decide, .inr ⟨"GB".toList, rfl⟩⟩, longer_gb, by decide +kernel⟩
    env rfl demo_standard (by decide +kernel) (reads_composed Demo.dogs_reads) (lang := "en".toList) rfl (fun _ => ()) l
    (fun m h => by cases h) (Demo.vals [("n", .inr 3)]) none (some false) ("3 dogs".toList, "en".toList)).2
    ⟨accepted, "3 dogs".toList, by decide +kernel, rfl⟩
  rcases h with h | ⟨_, h, _⟩
  · exact h
  · cases h

theorem details : ∃ x, opened.buildCache canonicalize stock = .ok x := by
  have h : (match opened.buildCache canonicalize stock with | .ok _ => true | _ => false) = true := by decide +kernel
  split at h
  · next x hx => exact ⟨x, hx⟩
  · cases h

/-- Canadian French is asked for, the default language is shown. -/
example : (l.call env (fun _ => ()) (.format app dogs (Demo.vals [("n", .inr 3)]) (some "fr-CA".toList) (some true)
    (some false))).1 = some (.ok ("3 dogs".toList, "en".toList)) := by
  obtain ⟨⟨ds, repo⟩, hb⟩ := details
  have h := (C95_default_language opens stocked hb (q := "fr-ca".toList) (tag := "fr-CA".toList) (by decide +kernel) none_af
    default_en en (k := pattern)
    ⟨(false, true), [], app, [], [⟨app, dogs, "af".toList, "honde".toList⟩], _, _, by decide, by decide, nofun, rfl, ⟨rfl, rfl⟩,
      rfl, rfl, ⟨by decide, .inl rfl⟩, (fun t ht hl => by have := truncation_length ht; omega), by decide +kernel⟩
    env rfl demo_standard (by decide +kernel) (reads_composed Demo.dogs_reads) (lang := "en".toList) rfl (fun _ => ()) l
    (fun m h => by cases h) (Demo.vals [("n", .inr 3)]) (some true) (some false) rfl ("3 dogs".toList, "en".toList)).2
    ⟨accepted, "3 dogs".toList, by decide +kernel, rfl⟩
  rcases h with h | ⟨_, h, _⟩
  · exact h
  · cases h

/-- Of cats nothing is stored. -/
example : (l.call env (fun _ => ()) (.format app "cats".toList [] (some "fr-CA".toList) (some true) none)).1 =
    some (.err (.stringNotFound app "cats".toList "fr-CA".toList true)) := by
  obtain ⟨⟨ds, repo⟩, hb⟩ := details
  rw [C95_not_found opens stocked hb (q := "fr-ca".toList) (tag := "fr-CA".toList) (by decide +kernel) cats env rfl
    (fun _ => ()) l (fun m h => by cases h) [] (some true) none fun _ => ⟨_, default_en, cats⟩]
  rfl

end DemoFallback

end Verif.Props
