import Verif.Spec.EndToEnd
import Verif.Spec.Meaning
import Verif.Props.LanguageTag
import Verif.Props.ProviderOpen
import Verif.Props.Written
import Verif.Props.LocaliserSync
/-
Property theorems C88: what is stored is what is shown, through provider, registry, localiser and formatter.
-/
namespace Verif.Props
open Verif Verif.FormatLemmas Verif.LocaliserLemmas
open Verif.Tag (canonicalize)
open Verif.Spec

variable {D F P S : Type}

/-- **C88, the formatter.** What can be written is formatted, without mistakes, exactly to what it means. -/
theorem C88_formatter {E : FmtEnv D F} (hE : Standard E) (hsp : E.icu.whiteSpace ' ' = true) {k : Composition}
    (hk : Composed E.icu k) (tag lang : Str) (values : AMap Str (PValue D F)) (x : Str × Str) :
    formatString E k.written tag (some lang) values = .ok x ↔
      k.Accepted E ∧ ∃ t, k.shown E lang values = some (.ok t) ∧ x = (t, tag) := by
  by_cases hg : ∃ g ∈ patternGrammar, g ∈ k.written
  · obtain ⟨d, h, e⟩ := written_reads hE hsp hk hg
    have hm := reads_meant h
    rw [formatString_meaning h, docOk_pieces E hm, eval_pieces E lang values hm, e]
    rfl
  · have hg : ∀ g ∈ patternGrammar, g ∉ k.written := fun g hg' hm => hg ⟨g, hg', hm⟩
    obtain ⟨hn, ht⟩ := plain_composition hk hg
    have hw : k.written = writtenPieces k.main := by simp [Composition.written, hn]
    unfold Composition.Accepted Composition.shown
    rw [hw] at hg ⊢
    rw [hn]
    rcases ht with ht | ⟨t, ht⟩
    · rw [ht]
      simp [writtenPieces, formatString, evalPieces, AcceptedNamed, eq_comm]
    · rw [ht] at hg ⊢
      have hw : writtenPieces [Piece.text t] = escape t := by simp [writtenPieces, Piece.written]
      rw [hw, C13_escaped_text_round_trips E hE]
      simp [evalPieces, evalPiece, AcceptedNamed, AcceptedPiece, eq_comm]

/-- A string found under the requested tag, for which nothing is cached, is formatted, caching or not. -/
theorem actualFormat_new (L : LocEnv D F P) {cache : Cache} {c i tag s : Str} (hn : NotCached cache c i tag) {fb : Bool}
    (hf : fetch L c i tag fb = .ok (s, tag)) (ca : Bool) (values : AMap Str (PValue D F)) :
    (actualFormat L cache c i values tag fb ca).1 =
      (formatString L.fmt s tag (L.icuLanguage tag) values).mapErr .formatter := by
  have e2 : (AMap.get cache tag).bind (fun m => (m.get (cacheKey c i)).map fun d => (m, d)) = none := by
    cases hg : AMap.get cache tag with
    | none => rfl
    | some m => simp [hn m hg]
  have hr : ∀ key s, (returnString (P := P) cache ca (AMap.get cache tag).isSome key s tag).1 = .ok (s, tag) := by
    intro key s
    unfold returnString addStringToCache
    cases hg : AMap.get cache tag <;> cases ca <;> simp
  unfold actualFormat formatString
  simp only [e2, hf]
  by_cases hs : s = []
  · simp only [hs, if_true, hr]
    rfl
  · simp only [hs, if_false]
    generalize Formatter.tryNew L.fmt s tag (L.icuLanguage tag) = x
    cases x with
    | panic => rfl
    | ok f =>
      cases ca with
      | false => rfl
      | true =>
        unfold cacheFormatter formatCached
        cases hg : AMap.get cache tag <;> simp [AMap.get_insert_self, AMap.get]
    | err e => cases e <;> first | exact hr _ _ | rfl

theorem storedFirst_string {p : Sqlite} (hc : Connected p) {st : Verif.Store} {rows : Str → List PatternRow}
    (hs : Stocked p st rows) {q tag : Str} (hq : canonicalize q = .ok tag) {c i s : Str}
    (h : StoredFirst p rows c i tag s) : (asProvider canonicalize p st).string c i tag = .ok (some (s, tag)) := by
  obtain ⟨files, name, others, before, r, after, h1, h2, h3, h4, h5, rfl, h7⟩ := h
  have hcan := TagLemmas.canonicalize_canonical hq
  have hw := C66_no_wildcards hq
  have hh : Holds canonicalize st (places files c) rows := by
    intro name hn
    refine ⟨hs.read c files h1 name hn, fun r hr => ?_⟩
    obtain ⟨t, ht, e⟩ := hs.tags name r hr
    exact ⟨t, canonicalButCase ht e⟩
  have hne : tag ≠ [] := by
    rintro rfl
    have := C63_canonical_kept hcan
    exact absurd this (by decide +kernel)
  have := C36_exact_preferred_partial hc h1 h2 hh hw hne h3 h4 h5 h7 (C63_canonical_kept hcan)
  simp only [asProvider, if_pos hw, this]

/-- **C88.** A pattern is stored, as written, with a tag in the first database asked for its component, no row before it
having a longer tag. Then the first request for it with that tag shows exactly what the pattern means, whatever else the
cache holds, with or without fallback and caching; and if the pattern is not accepted or means nothing for the values,
no text is given. -/
theorem C88_stored_is_shown {path : PathKind} {p : Sqlite} (hopen : Sqlite.tryNew path = .ok p) {st : Verif.Store}
    {rows : Str → List PatternRow} (hs : Stocked p st rows) {q tag : Str} (hq : canonicalize q = .ok tag) {c i : Str}
    {k : Composition} (hk : StoredFirst p rows c i tag k.written) (L : LocEnv D F (Option (ProvErr Tag.ParserError)))
    (hL : L.provider = asProvider canonicalize p st) (hE : Standard L.fmt) (hsp : L.fmt.icu.whiteSpace ' ' = true)
    (hkc : Composed L.fmt.icu k) {lang : Str} (hlang : L.icuLanguage tag = some lang) (scriptOf : Str → S)
    (l : Localiser S) (hn : NotCached l.cache c i tag) (values : AMap Str (PValue D F)) (fb ca : Option Bool)
    (x : Str × Str) :
    (l.call L scriptOf (.format c i values (some tag) fb ca)).1 = some (.ok x) ↔
      k.Accepted L.fmt ∧ ∃ t, k.shown L.fmt lang values = some (.ok t) ∧ x = (t, tag) := by
  have hst := storedFirst_string (C39_connections_available hopen).1 hs hq hk
  rw [← hL] at hst
  simp only [Localiser.call, Option.getD_some, actualFormat_new L hn (fetch_of_string hst _), hlang]
  rw [← C88_formatter hE hsp hkc]
  cases formatString L.fmt k.written tag (some lang) values <;> simp [Outcome.mapErr]

/-- The provider of a stocked directory finds a string again under the tag with which it was found. -/
theorem stocked_coherent {path : PathKind} {p : Sqlite} (hopen : Sqlite.tryNew path = .ok p) {st : Verif.Store}
    {rows : Str → List PatternRow} (hs : Stocked p st rows) : Coherent (asProvider canonicalize p st) := by
  have hcon := (C39_connections_available hopen).1
  refine sqlite_coherent hcon (rows := rows) (fun c files h name hn => ⟨hs.read c files h name hn, fun r hr => ?_⟩)
    fun name r hr t' ht' => ?_
  · obtain ⟨t, ht, e⟩ := hs.tags name r hr
    exact ⟨t, canonicalButCase ht e⟩
  · obtain ⟨t, ht, e⟩ := hs.tags name r hr
    rw [canonicalButCase ht e] at ht'
    cases ht'
    exact ⟨e, TagLemmas.canonical_noWildcards ht⟩

/-- **C88, after any requests.** The same holds for any later request, if the cache does not matter for the requests (`Tame`,
see C29), except that it may panic where C30 says; and it does not if every string is found under the requested tag. -/
theorem C88_stored_is_shown_again {path : PathKind} {p : Sqlite} (hopen : Sqlite.tryNew path = .ok p) {st : Verif.Store}
    {rows : Str → List PatternRow} (hs : Stocked p st rows) {q tag : Str} (hq : canonicalize q = .ok tag) {c i : Str}
    {k : Composition} (hk : StoredFirst p rows c i tag k.written) (L : LocEnv D F (Option (ProvErr Tag.ParserError)))
    (hL : L.provider = asProvider canonicalize p st) (hE : Standard L.fmt) (hsp : L.fmt.icu.whiteSpace ' ' = true)
    (hkc : Composed L.fmt.icu k) {lang : Str} (hlang : L.icuLanguage tag = some lang) (scriptOf : Str → S)
    (l : Localiser S) (hl : l.cache = []) (calls : List (Request D F)) (values : AMap Str (PValue D F)) (fb ca : Option Bool)
    (ht : Tame L (callsUses l.tag l.fallback (calls ++ [.format c i values (some tag) fb ca])))
    (hp : NoPanic L scriptOf l calls) (x : Str × Str) :
    let answer := ((l.after L scriptOf calls).call L scriptOf (.format c i values (some tag) fb ca)).1
    let meant := k.Accepted L.fmt ∧ ∃ t, k.shown L.fmt lang values = some (.ok t) ∧ x = (t, tag)
    (answer = some (.ok x) → meant) ∧ (meant → answer = some (.ok x) ∨ answer = some .panic) ∧
      (Exact L (callsUses l.tag l.fallback (calls ++ [.format c i values (some tag) fb ca])) →
        (answer = some (.ok x) ↔ meant)) := by
  have hco : Coherent L.provider := hL ▸ stocked_coherent hopen hs
  intro answer meant
  have h := C29_answers_as_without_cache_partial L hco scriptOf l hl calls (.format c i values (some tag) fb ca) ht hp
  simp only at h
  have hm := C88_stored_is_shown hopen hs hq hk L hL hE hsp hkc hlang scriptOf
    ({ l.after L scriptOf calls with cache := [] } : Localiser S) (fun m h => by cases h) values fb (some false) x
  refine ⟨fun ha => ?_, fun ha => ?_, fun he => ?_⟩
  · rcases h.1 with h | h
    · exact hm.1 (h.symm.trans ha)
    · exact absurd (h.symm.trans ha) (by simp)
  · rcases h.1 with h | h
    · exact .inl (h.trans (hm.2 ha))
    · exact .inr h
  · rw [show answer = _ from h.2 he]
    exact hm

/-- **C88, threads.** The same holds for every request of threads that share a localiser after any requests, under every
schedule: a text that a thread is shown is what the stored pattern means; and what it means is shown, unless the thread
panics (see C50). No thread panics if every string is found under the requested tag, the languages have entries when the
threads start, and no request would panic alone without cache. -/
theorem C88_threads {path : PathKind} {p : Sqlite} (hopen : Sqlite.tryNew path = .ok p) {st : Verif.Store}
    {rows : Str → List PatternRow} (hs : Stocked p st rows) {q tag : Str} (hq : canonicalize q = .ok tag) {c i : Str}
    {k : Composition} (hk : StoredFirst p rows c i tag k.written) (L : LocEnv D F (Option (ProvErr Tag.ParserError)))
    (hL : L.provider = asProvider canonicalize p st) (hE : Standard L.fmt) (hsp : L.fmt.icu.whiteSpace ' ' = true)
    (hkc : Composed L.fmt.icu k) {lang : Str} (hlang : L.icuLanguage tag = some lang) (scriptOf : Str → S)
    (l : Localiser S) (hl : l.cache = []) (before : List (Request D F)) (hp : NoPanic L scriptOf l before)
    (threads : List (List (Request D F))) (hst : ∀ calls ∈ threads, ∀ r ∈ calls, Steady r)
    (ht : Tame L (sharedUses L scriptOf l before threads)) (schedule : List Nat) (j : Nat) (calls : List (Request D F))
    (hj : threads[j]? = some calls) (t : Act (Shared S) (List (Option (LocM (Option (ProvErr Tag.ParserError)) (Str × Str)))))
    (hr : (runThreads (l.after L scriptOf before).share (threadsOf L scriptOf threads) schedule).2[j]? = some t)
    (answers : List (Option (LocM (Option (ProvErr Tag.ParserError)) (Str × Str)))) (ha : t.result = some answers) (n : Nat)
    (values : AMap Str (PValue D F)) (fb ca : Option Bool) (hn : calls[n]? = some (.format c i values (some tag) fb ca))
    (x : Str × Str) :
    let meant := k.Accepted L.fmt ∧ ∃ t, k.shown L.fmt lang values = some (.ok t) ∧ x = (t, tag)
    (answers[n]? = some (some (.ok x)) → meant) ∧
    (meant → answers[n]? = some (some (.ok x)) ∨ some (.panic) ∈ answers) ∧
    (Exact L (sharedUses L scriptOf l before threads) →
      (∀ u ∈ sharedUses L scriptOf l before threads, (AMap.get (l.after L scriptOf before).cache u.tag).isSome = true) →
      (∀ calls ∈ threads, ∀ r ∈ calls, plainAnswer L scriptOf (l.after L scriptOf before) r ≠ some .panic) →
      (answers[n]? = some (some (.ok x)) ↔ meant)) := by
  intro meant
  have hco : Coherent L.provider := hL ▸ stocked_coherent hopen hs
  have hm : plainAnswer L scriptOf (l.after L scriptOf before) (.format c i values (some tag) fb ca) = some (.ok x) ↔ meant :=
    C88_stored_is_shown hopen hs hq hk L hL hE hsp hkc hlang scriptOf
      ({ l.after L scriptOf before with cache := [] } : Localiser S) (fun m h => by cases h) values fb (some false) x
  have hexp : (calls.map (plainAnswer L scriptOf (l.after L scriptOf before)))[n]? =
      some (plainAnswer L scriptOf (l.after L scriptOf before) (.format c i values (some tag) fb ca)) := by
    rw [List.getElem?_map, hn]; rfl
  have h := C50_answers_as_without_cache_partial L hco scriptOf l hl before hp threads hst ht schedule j calls hj t hr answers ha
  simp only at h
  refine ⟨fun hx => ?_, fun hmean => ?_, fun he hw hno => ?_⟩
  · rcases h with h | ⟨m, hlt, h⟩
    · rw [h, hexp] at hx
      exact hm.1 (Option.some.inj hx)
    · rw [h, List.getElem?_append] at hx
      split at hx
      · next hnm =>
        rw [List.length_take] at hnm
        rw [List.getElem?_take_of_lt (by omega), hexp] at hx
        exact hm.1 (Option.some.inj hx)
      · next hnm =>
        cases hd : n - (List.take m (calls.map (plainAnswer L scriptOf (l.after L scriptOf before)))).length with
        | zero => rw [hd] at hx; cases hx
        | succ e => rw [hd] at hx; cases hx
  · rcases h with h | ⟨m, hlt, h⟩
    · left
      rw [h, hexp, hm.2 hmean]
    · right
      rw [h]; simp
  · rw [C50_warm_cache_partial L hco scriptOf l hl before hp threads hst ht he hw hno schedule j calls hj t hr answers ha, hexp]
    rw [← hm]
    exact ⟨Option.some.inj, congrArg some⟩

/-! The example: one file, with two rows for one string. -/

namespace DemoStored
open DemoFiles

def app : Str := "application".toList
def dogs : Str := "dogs".toList

/-- `{n plural one#one other#other}#{one a dog}{other # dogs}`. -/
def pattern : Composition := Demo.dogsDoc.composition

def opened : Sqlite := ⟨[(app, (false, true))], [(app, "1.0".toList)]⟩

theorem opens : Sqlite.tryNew (.directory [file "application" shipped ["application"], readme]) = .ok opened := rfl

def rows (name : Str) : List PatternRow :=
  if name = app then [⟨app, dogs, "af".toList, "honde".toList⟩, ⟨app, dogs, "en".toList, pattern.written⟩,
    ⟨app, dogs, "en-ZA".toList, "doggies".toList⟩] else []

def store : Verif.Store := fun name => ⟨.ok (rows name), .ok [], .ok []⟩

theorem stocked : Stocked opened store rows := by
  refine ⟨fun _ _ _ _ _ => rfl, fun name r hr => ⟨r.tag, ?_, rfl⟩⟩
  unfold rows at hr
  split at hr
  · simp only [List.mem_cons, List.not_mem_nil, or_false] at hr
    rcases hr with rfl | rfl | rfl
    · exact TagLemmas.canonicalize_canonical (q := "af".toList) (by decide +kernel)
    · exact TagLemmas.canonicalize_canonical (q := "en".toList) (by decide +kernel)
    · exact TagLemmas.canonicalize_canonical (q := "en-ZA".toList) (by decide +kernel)
  · cases hr

theorem stored : StoredFirst opened rows app dogs "en".toList pattern.written :=
  ⟨(false, true), app, [], [⟨app, dogs, "af".toList, "honde".toList⟩], _, _, by decide, by decide, rfl, ⟨rfl, rfl⟩, rfl, rfl,
    by decide +kernel⟩

def env : LocEnv Nat Unit (Option (ProvErr Tag.ParserError)) where
  fmt := Demo.env
  provider := asProvider canonicalize opened store
  icuLanguage := some

theorem accepted : DocOk Demo.env Demo.dogsDoc := by
  have h : Demo.accepts "{n plural one#one other#other}# {one a dog}{other # dogs}" = true := by decide +kernel
  unfold Demo.accepts at h
  split at h
  · next f hf =>
    obtain ⟨d, hd, ok⟩ := (C48_accepted_exactly _ _ _ _).1 ⟨f, hf⟩
    rwa [C85_string_one_reading hd Demo.dogs_reads] at ok
  · cases h

/-- The tag is asked for as `EN`; three dogs are shown as such. -/
example : (Localiser.call env (fun _ => ()) ⟨[], true, true, "en-ZA".toList, ()⟩
    (.format app dogs (Demo.vals [("n", .inr 3)]) (some "en".toList) none none)).1 =
    some (.ok ("3 dogs".toList, "en".toList)) := by
  refine (C88_stored_is_shown opens stocked (q := "EN".toList) (by decide +kernel) stored env rfl demo_standard
    (by decide +kernel) (reads_composed Demo.dogs_reads) (lang := "en".toList) rfl _ _ (fun m h => by cases h) _ none none _).2
    ⟨?_, "3 dogs".toList, by decide +kernel, rfl⟩
  exact (docOk_pieces Demo.env (reads_meant Demo.dogs_reads)).1 accepted

/-! Two threads, after one call that caches the pattern. -/

def ask (n : Nat) : Request Nat Unit := .format app dogs (Demo.vals [("n", .inr n)]) (some "en".toList) none none

def start : Localiser Unit := ⟨[], true, true, "en-ZA".toList, ()⟩

def threads : List (List (Request Nat Unit)) := [[ask 3, ask 1], [ask 1]]

def uses : List Use := sharedUses env (fun _ => ()) start [ask 5] threads

theorem uses_one : ∀ u ∈ uses, u = ⟨app, dogs, "en".toList, true, true⟩ := by
  have h : ∀ u ∈ uses, u.component = app ∧ u.identifier = dogs ∧ u.tag = "en".toList ∧ u.fallback = true ∧
      u.formatted = true := by decide +kernel
  rintro ⟨c, i, t, f, g⟩ hu
  obtain ⟨rfl, rfl, rfl, rfl, rfl⟩ := h _ hu
  rfl

theorem string_stored {tag s t : Str} (h : env.provider.string app dogs tag = .ok (some (s, t))) :
    s = "honde".toList ∨ s = pattern.written ∨ s = "doggies".toList := by
  simp only [env, asProvider] at h
  split at h
  · next hw =>
    have hh : Holds canonicalize store (places (false, true) app) rows := by
      intro name hn
      refine ⟨stocked.read app (false, true) (by decide) name hn, fun r hr => ?_⟩
      obtain ⟨t, ht, e⟩ := stocked.tags name r hr
      exact ⟨t, canonicalButCase ht e⟩
    rcases C35_found_unless_none_matches (C39_connections_available opens).1 (c := app) (files := (false, true)) (by decide)
      hh dogs tag hw with ⟨hs, _⟩ | ⟨x, name, r, _, hs, hn, hr, _, _, _, hg⟩
    · rw [hs] at h; cases h
    · rw [hs] at h
      cases h
      have hn : name = app := List.mem_singleton.1 hn
      subst hn
      have hx : s = r.string := hg.1
      have hr : r ∈ [⟨app, dogs, "af".toList, "honde".toList⟩, ⟨app, dogs, "en".toList, pattern.written⟩,
        ⟨app, dogs, "en-ZA".toList, "doggies".toList⟩] := hr
      simp only [List.mem_cons, List.not_mem_nil, or_false] at hr
      rcases hr with rfl | rfl | rfl
      · exact .inl hx
      · exact .inr (.inl hx)
      · exact .inr (.inr hx)
  · cases h

theorem tame : Tame env uses where
  slash := by decide +kernel
  fallback := by decide +kernel
  kinds := by
    intro u _ v hv _ _ _ hf
    rw [uses_one v hv] at hf
    cases hf
  numbers := by
    intro u hu _ tag s t h
    rw [uses_one u hu] at h
    have hlex : ∀ s, (match lex Demo.env.icu Demo.env.grammar s with
        | .ok ts => decide (∀ t ∈ ts, t.string ≠ "select".toList)
        | .error _ => false) = true → ∀ d, Reads Demo.env s d → SelectsWithoutNumbers d := by
      intro s hs
      cases hl : lex Demo.env.icu Demo.env.grammar s with
      | ok ts =>
        rw [hl] at hs
        exact no_select hl (of_decide_eq_true hs)
      | error e => rw [hl] at hs; cases hs
    rcases string_stored h with rfl | rfl | rfl <;> exact hlex _ (by decide +kernel)

theorem exactly : Exact env uses := by
  intro u hu s t h
  rw [uses_one u hu] at h ⊢
  have hst : env.provider.string app dogs "en".toList = .ok (some (pattern.written, "en".toList)) :=
    storedFirst_string (C39_connections_available opens).1 stocked (q := "EN".toList) (by decide +kernel) stored
  cases h with
  | requested h => rw [hst] at h; cases h; rfl
  | default h => rw [hst] at h; cases h

def texts (t : Act (Shared Unit) (List (Option (LocM (Option (ProvErr Tag.ParserError)) (Str × Str))))) :
    List (Option (Str × Str)) :=
  match t.result with
  | some answers => answers.map fun a => match a with
    | some (.ok x) => some x
    | _ => none
  | none => []

example : (∀ calls ∈ threads, ∀ r ∈ calls, Steady r) ∧ NoPanic env (fun _ => ()) start [ask 5] ∧ Tame env uses ∧
    Exact env uses ∧
    (∀ u ∈ uses, (AMap.get (start.after env (fun _ => ()) [ask 5]).cache u.tag).isSome = true) ∧
    (runThreads (start.after env (fun _ => ()) [ask 5]).share (threadsOf env (fun _ => ()) threads)
      [1, 0, 1, 0, 0, 1, 1, 1, 0, 0, 0, 1, 0, 0, 0, 1, 0, 0, 1, 0, 0, 0, 0]).2.map texts =
      [[some ("3 dogs".toList, "en".toList), some ("a dog".toList, "en".toList)], [some ("a dog".toList, "en".toList)]] := by
  refine ⟨by simp [threads, ask, Steady], ⟨?_, trivial⟩, tame, exactly, by decide +kernel, by decide +kernel⟩
  have h : (match (start.call env (fun _ => ()) (ask 5)).1 with | some .panic => false | _ => true) = true := by
    decide +kernel
  intro hp
  rw [hp] at h
  cases h

end DemoStored

end Verif.Props
