import Verif.Lemmas.LocaliserCache
import Verif.Spec.DemoLocaliser
/-
Property theorems C29–C32 and C34: the localiser and its cache, /repo/crates/localiser/src/localiser.rs.

A history is a list of calls on one localiser. The answers without caching are those of `uncached` calls on a localiser
with the same defaults and an empty cache.
-/
namespace Verif.Props
open Verif Verif.Spec Verif.LocaliserLemmas

variable {D F P S : Type}

/-! ### C29: the cache is transparent -/

/-- Strings for the witnesses. -/
def demoRows : Demo.Rows :=
  Demo.rows [("c", "hi", "en", "hello {x}"), ("c", "bye", "en", "bye"), ("a/b", "c", "en", "one"), ("a", "b/c", "en", "two"),
    ("c", "old", "en", "{s select other#other}{n plural other#other}# {other #}")]

/-- **C29 is violated** in five ways; each pair is a sequence of calls with caching and without.
1. A pattern used as it is, then formatted: it is not formatted any more.
2. A pattern formatted, then used as it is: an error.
3. Two strings with the same key.
4. A pattern found by fallback is later given without fallback, instead of an error.
5. The stale numbers of a formatter (C22). -/
theorem C29_violated :
    (∃ calls, Demo.answers (Demo.loc demoRows) (Demo.start true) calls = [Demo.say "hello {x}", Demo.say "hello {x}"] ∧
      Demo.answers (Demo.loc demoRows) (Demo.start false) calls = [Demo.say "hello {x}", Demo.say "hello you"]) ∧
    (∃ calls, Demo.answers (Demo.loc demoRows) (Demo.start true) calls = [Demo.say "hello you", some none] ∧
      Demo.answers (Demo.loc demoRows) (Demo.start false) calls = [Demo.say "hello you", Demo.say "hello {x}"]) ∧
    (∃ calls, Demo.answers (Demo.loc demoRows) (Demo.start true) calls = [Demo.say "one", Demo.say "one"] ∧
      Demo.answers (Demo.loc demoRows) (Demo.start false) calls = [Demo.say "one", Demo.say "two"]) ∧
    (∃ calls, Demo.answers (Demo.loc demoRows) (Demo.start true) calls = [Demo.say "hello you", Demo.say "hello you"] ∧
      Demo.answers (Demo.loc demoRows) (Demo.start false) calls = [Demo.say "hello you", some none]) ∧
    (∃ calls, Demo.answers (Demo.loc demoRows) (Demo.start true) calls = [Demo.say "5", Demo.say "55"] ∧
      Demo.answers (Demo.loc demoRows) (Demo.start false) calls = [Demo.say "5", Demo.say "5"]) := by
  refine ⟨⟨[Demo.lit "c" "hi", Demo.fmt "c" "hi" [("x", .inl "you")]], ?_⟩,
    ⟨[Demo.fmt "c" "hi" [("x", .inl "you")], Demo.lit "c" "hi"], ?_⟩,
    ⟨[Demo.lit "a/b" "c", Demo.lit "a" "b/c"], ?_⟩,
    ⟨[Demo.fmt "c" "hi" [("x", .inl "you")] "de", Demo.fmt "c" "hi" [("x", .inl "you")] "de" (some false)], ?_⟩,
    ⟨[Demo.fmt "c" "old" [("s", .inl "other"), ("n", .inr 5)], Demo.fmt "c" "old" [("s", .inl "other"), ("n", .inr 5)]], ?_⟩⟩ <;>
    decide +kernel

/-- **C29, what holds.** After any history without panics the answer of a call is the one without caching, or the call
panics, provided the provider reports tags under which it has the string, and the strings needed are `Tame`: component
names without slash, requests for one pattern agreeing in the use of fallback, no string with grammar used both as it is
and formatted, no select pattern listing a named string with number signs. If moreover every string is found under the
requested tag, the answer is always the one without caching. Missing: the other histories, for which `C29_violated` shows
that each condition is needed, and panics, which C30 describes. -/
theorem C29_answers_as_without_cache_partial (L : LocEnv D F P) (hco : Coherent L.provider) (scriptOf : Str → S)
    (l : Localiser S) (hl : l.cache = []) (calls : List (Request D F)) (r : Request D F)
    (ht : Tame L (callsUses l.tag l.fallback (calls ++ [r]))) (hp : NoPanic L scriptOf l calls) :
    let l' := l.after L scriptOf calls
    let answer := (({ l' with cache := [] } : Localiser S).call L scriptOf (uncached r)).1
    ((l'.call L scriptOf r).1 = answer ∨ (l'.call L scriptOf r).1 = some .panic) ∧
    (Exact L (callsUses l.tag l.fallback (calls ++ [r])) → (l'.call L scriptOf r).1 = answer) := by
  obtain ⟨h1, h2⟩ := history_ok hco ht scriptOf r calls l (by rw [hl]; exact CacheOk.nil _ _) (fun u h => h) hp
  rcases call_ok hco ht scriptOf _ h1 r h2 with ⟨h, _⟩ | ⟨h, hx⟩
  · exact ⟨.inl h, fun _ => h⟩
  · exact ⟨.inr h, fun he => absurd he hx⟩

/-- Without caching at all a localiser answers by its defaults alone. -/
theorem C29_never_caching_partial (L : LocEnv D F P) (scriptOf : Str → S) (l : Localiser S) (hl : l.cache = [])
    (r : Request D F) : (l.call L scriptOf (uncached r)).2.cache = [] := by
  cases r with
  | format c i vs t fb ca => simp [uncached, Localiser.call, hl, actualFormat_nil]
  | literal c i t fb ca => simp [uncached, Localiser.call, hl, actualLiteral_nil]
  | data c i vs t fb ca => simp [uncached, Localiser.call, hl, actualData_nil]
  | defaults t fb ca =>
    simp only [uncached, Localiser.call, Localiser.setDefaults]
    cases t <;> cases fb <;> cases ca <;> exact hl

/-! ### C30: panics -/

/-- **C30 is violated**: a pattern formatted for `en-ZA`, then a text that the provider reports as `en`. -/
theorem C30_violated : Demo.answers (Demo.loc demoRows) (Demo.start true)
    [Demo.fmt "c" "hi" [("x", .inl "you")] "en-ZA", Demo.lit "c" "bye" "en-ZA"] = [Demo.say "hello you", none] := by
  decide +kernel

/-- **C30, literals.** In whatever state the cache is, a request for a string as it is panics exactly when it caches,
nothing is cached for the string under the requested tag but something else is, and nothing is cached under the tag that
the provider reports. Missing: that there is no panic then. -/
theorem C30_literal_panics_exactly_partial (L : LocEnv D F P) (cache : Cache) (c i tag : Str) (fb caching : Bool) :
    (actualLiteral L cache c i tag fb caching).1 = .panic ↔
      caching = true ∧ ∃ m s t, AMap.get cache tag = some m ∧ m.get (cacheKey c i) = none ∧
        Found L.provider c i tag fb (.ok (s, t)) ∧ AMap.get cache t = none := by
  have hmiss : (AMap.get cache tag).bind (fun m => m.get (cacheKey c i)) = none →
      ((actualLiteral L cache c i tag fb caching).1 = .panic ↔
      caching = true ∧ ∃ m s t, AMap.get cache tag = some m ∧ m.get (cacheKey c i) = none ∧
        Found L.provider c i tag fb (.ok (s, t)) ∧ AMap.get cache t = none) := by
    intro hn
    unfold actualLiteral
    simp only [hn]
    have hf := fetch_found L c i tag fb
    cases hx : fetch L c i tag fb with
    | panic => rw [hx] at hf; cases hf
    | err e =>
      simp only [reduceCtorEq, false_iff]
      rintro ⟨_, m, s, t, _, _, h, _⟩
      rw [found_fetch h] at hx
      cases hx
    | ok r =>
      obtain ⟨s, t⟩ := r
      simp only [returnString, addStringToCache]
      cases caching with
      | false => simp
      | true =>
        simp only [if_true, true_and]
        cases hg : AMap.get cache tag with
        | none => simp
        | some m =>
          rw [hg] at hn
          simp only [Option.isSome_some, not_true, if_false]
          constructor
          · intro h
            refine ⟨m, s, t, rfl, hn, hx ▸ hf, ?_⟩
            cases hgt : AMap.get cache t with
            | none => rfl
            | some m' => rw [hgt] at h; simp at h
          · rintro ⟨m', s', t', _, _, h3, h4⟩
            have := found_fetch h3
            rw [hx] at this
            cases this
            rw [h4]
  cases hg : AMap.get cache tag with
  | none => rw [hg] at hmiss; simpa using hmiss
  | some m =>
    cases hk : m.get (cacheKey c i) with
    | none => rw [hg] at hmiss; exact hmiss (by simpa using hk)
    | some e =>
      have hk' : AMap.get m (cacheKey c i) ≠ none := by rw [hk]; simp
      unfold actualLiteral
      simp only [hg, Option.bind_some, hk]
      cases e <;> simp [hk]

/-- **C30, formatting.** A formatting request panics only for the same reason, or because a command or the parser panics
or formatting never ends (C11, C20, C28). -/
theorem C30_format_panics_only_partial (L : LocEnv D F P) (cache : Cache) (c i tag : Str) (values : AMap Str (PValue D F))
    (fb caching : Bool) (h : (actualFormat L cache c i values tag fb caching).1 = .panic) :
    (caching = true ∧ ∃ m s t, AMap.get cache tag = some m ∧ m.get (cacheKey c i) = none ∧
      Found L.provider c i tag fb (.ok (s, t)) ∧ AMap.get cache t = none) ∨
    (∃ m f, AMap.get cache tag = some m ∧ m.get (cacheKey c i) = some (.formatter f) ∧
      (f.format L.fmt values).1 = .panic) ∨
    ∃ s t, Found L.provider c i tag fb (.ok (s, t)) ∧ formatString L.fmt s t (L.icuLanguage t) values = .panic := by
  have hmiss : (AMap.get cache tag).bind (fun m => (m.get (cacheKey c i)).map fun d => (m, d)) = none →
      (caching = true ∧ ∃ m s t, AMap.get cache tag = some m ∧ m.get (cacheKey c i) = none ∧
        Found L.provider c i tag fb (.ok (s, t)) ∧ AMap.get cache t = none) ∨
      ∃ s t, Found L.provider c i tag fb (.ok (s, t)) ∧ formatString L.fmt s t (L.icuLanguage t) values = .panic := by
    intro hn
    unfold actualFormat at h
    simp only [hn] at h
    have hf := fetch_found L c i tag fb
    cases hx : fetch L c i tag fb with
    | panic => rw [hx] at hf; cases hf
    | err e => rw [hx] at h; cases h
    | ok r =>
      obtain ⟨s, t⟩ := r
      rw [hx] at h hf
      simp only at h
      have hret : (returnString (P := P) cache caching (AMap.get cache tag).isSome (cacheKey c i) s t).1 = .panic →
          caching = true ∧ ∃ m s t, AMap.get cache tag = some m ∧ m.get (cacheKey c i) = none ∧
            Found L.provider c i tag fb (.ok (s, t)) ∧ AMap.get cache t = none := by
        intro h
        unfold returnString addStringToCache at h
        cases caching with
        | false => simp at h
        | true =>
          refine ⟨rfl, ?_⟩
          cases hg : AMap.get cache tag with
          | none => rw [hg] at h; simp at h
          | some m =>
            rw [hg] at h hn
            simp only [Option.isSome_some, not_true, if_false, if_true] at h
            refine ⟨m, s, t, rfl, by simpa using hn, hf, ?_⟩
            cases hgt : AMap.get cache t with
            | none => rfl
            | some m' => rw [hgt] at h; simp at h
      by_cases hs : s = []
      · simp only [hs, if_true] at h
        rw [hs] at hret
        exact .inl (hret h)
      · simp only [hs, if_false] at h
        cases hy : Formatter.tryNew L.fmt s t (L.icuLanguage t) with
        | panic => exact .inr ⟨s, t, hf, by simp [formatString, hs, hy]⟩
        | err e =>
          rw [hy] at h
          cases e with
          | noGrammar => exact .inl (hret h)
          | _ => simp at h
        | ok f =>
          rw [hy] at h
          have hfmt : (f.format L.fmt values).1 = .panic →
              formatString L.fmt s t (L.icuLanguage t) values = .panic := by
            intro hq; simp [formatString, hs, hy, hq]
          cases caching with
          | false =>
            simp only [Bool.false_eq_true, not_false_eq_true, if_true] at h
            exact .inr ⟨s, t, hf, hfmt ((mapErr_panic _ _).1 h)⟩
          | true =>
            simp only [not_true, if_false] at h
            unfold cacheFormatter at h
            cases hg : AMap.get cache tag with
            | none =>
              rw [hg] at h
              simp only [Option.isSome_none, Bool.false_eq_true, not_false_eq_true, if_true, AMap.get_insert_self,
                AMap.get_cons, formatCached] at h
              exact .inr ⟨s, t, hf, hfmt ((mapErr_panic _ _).1 h)⟩
            | some m =>
              rw [hg] at h
              simp only [Option.isSome_some, not_true, if_false, AMap.get_insert_self, formatCached] at h
              exact .inr ⟨s, t, hf, hfmt ((mapErr_panic _ _).1 h)⟩
  cases hg : AMap.get cache tag with
  | none =>
    rw [hg] at hmiss
    rcases hmiss rfl with h | h
    · exact .inl h
    · exact .inr (.inr h)
  | some m =>
    cases hk : m.get (cacheKey c i) with
    | none =>
      rw [hg] at hmiss
      rcases hmiss (by simp [hk]) with h | h
      · refine .inl ⟨h.1, ?_⟩
        obtain ⟨m', s, t, h1, h2⟩ := h.2
        exact ⟨m', s, t, h1, h2⟩
      · exact .inr (.inr h)
    | some e =>
      unfold actualFormat at h
      simp only [hg, Option.bind_some, hk, Option.map_some] at h
      cases e with
      | localised s t => simp at h
      | formatter f => exact .inr (.inl ⟨m, f, rfl, hk, (mapErr_panic _ _).1 h⟩)

/-- **C30, languages found exactly.** In whatever state the cache is, a string that is found under the requested tag is
given without panic. -/
theorem C30_exact_tag_never_panics_partial (L : LocEnv D F P) (cache : Cache) (c i tag : Str) (fb caching : Bool)
    (hx : ∀ s t, Found L.provider c i tag fb (.ok (s, t)) → t = tag) :
    (actualLiteral L cache c i tag fb caching).1 ≠ .panic := by
  intro h
  obtain ⟨_, m, s, t, h1, _, h2, h3⟩ := (C30_literal_panics_exactly_partial L cache c i tag fb caching).1 h
  rw [hx s t h2, h1] at h3
  cases h3

/-! ### C31: keys -/

/-- **C31 is violated**: `a/b` and `c` have the key of `a` and `b/c`. -/
theorem C31_violated : cacheKey "a/b".toList "c".toList = cacheKey "a".toList "b/c".toList ∧
    Demo.answers (Demo.loc demoRows) (Demo.start true) [Demo.lit "a/b" "c", Demo.lit "a" "b/c"] =
      [Demo.say "one", Demo.say "one"] ∧
    Demo.answers (Demo.loc demoRows) (Demo.start true) [Demo.lit "a" "b/c"] = [Demo.say "two"] := by decide +kernel

/-- **C31, what holds.** If no component requested has a slash in its name, then after any history the entry that a
request finds was made from a string of the requested component and identifier. Missing: component names with a slash. -/
theorem C31_entry_is_of_its_string_partial (L : LocEnv D F P) (scriptOf : Str → S) (l : Localiser S) (hl : l.cache = [])
    (calls : List (Request D F)) (hs : ∀ u ∈ callsUses l.tag l.fallback calls, '/' ∉ u.component) (c i tag : Str)
    (hc : '/' ∉ c) (m : AMap Str CacheData) (e : CacheData)
    (hm : AMap.get (l.after L scriptOf calls).cache tag = some m) (he : m.get (cacheKey c i) = some e) :
    MadeFrom L c i e := by
  have h := history_traced (L := L) hs scriptOf calls l (by rw [hl]; intro tag m h; cases h) (fun u h => h)
  obtain ⟨u, hu, h1, h2⟩ := h _ _ hm _ _ he
  obtain ⟨e1, e2⟩ := cacheKey_inj h1 hc (hs u hu)
  rw [e1, e2]
  exact h2

/-- Different strings have different keys. -/
theorem C31_keys_differ_partial (c i c' i' : Str) (hc : '/' ∉ c) (hc' : '/' ∉ c') :
    cacheKey c i = cacheKey c' i' ↔ c = c' ∧ i = i' :=
  ⟨fun h => cacheKey_inj h hc hc', fun ⟨h1, h2⟩ => by rw [h1, h2]⟩

/-! ### C32: fallback -/

/-- Nothing is cached for the string under the tag. -/
def NotCached (cache : Cache) (c i tag : Str) : Prop := ∀ m, AMap.get cache tag = some m → m.get (cacheKey c i) = none

/-- **C32.** If nothing is cached for a request, the answer is that of the provider in the documented order (`Found`
allows exactly one): an error is passed on and nothing is cached; a string is given as it is, or formatted, with the tag
reported — or the cache panics (C30), which it never does without caching. -/
theorem C32_fallback_order (L : LocEnv D F P) (cache : Cache) (c i tag : Str) (fb caching : Bool)
    (values : AMap Str (PValue D F)) (hn : NotCached cache c i tag) :
    ∃ r, Found L.provider c i tag fb r ∧ (∀ r', Found L.provider c i tag fb r' → r' = r) ∧
      match r with
      | .err e => actualLiteral L cache c i tag fb caching = (.err e, cache) ∧
          actualFormat L cache c i values tag fb caching = (.err e, cache)
      | .ok (s, t) =>
        ((actualLiteral L cache c i tag fb caching).1 = .ok (s, t) ∨
          caching = true ∧ (actualLiteral L cache c i tag fb caching).1 = .panic) ∧
        ((actualFormat L cache c i values tag fb caching).1 =
            (formatString L.fmt s t (L.icuLanguage t) values).mapErr .formatter ∨
          caching = true ∧ (actualFormat L cache c i values tag fb caching).1 = .panic)
      | .panic => False := by
  refine ⟨fetch L c i tag fb, fetch_found L c i tag fb, fun r' h => (found_fetch h).symm, ?_⟩
  have e1 : (AMap.get cache tag).bind (fun m => m.get (cacheKey c i)) = none := by
    cases hg : AMap.get cache tag with
    | none => rfl
    | some m => exact hn m hg
  have e2 : (AMap.get cache tag).bind (fun m => (m.get (cacheKey c i)).map fun d => (m, d)) = none := by
    cases hg : AMap.get cache tag with
    | none => rfl
    | some m => simp [hn m hg]
  have hf := fetch_found L c i tag fb
  unfold actualLiteral actualFormat
  simp only [e1, e2]
  cases hx : fetch L c i tag fb with
  | panic => rw [hx] at hf; cases hf
  | err e => exact ⟨rfl, rfl⟩
  | ok r =>
    obtain ⟨s, t⟩ := r
    have hret : ∀ ex, (returnString (P := P) cache caching ex (cacheKey c i) s t).1 = .ok (s, t) ∨
        caching = true ∧ (returnString (P := P) cache caching ex (cacheKey c i) s t).1 = .panic := by
      intro ex
      unfold returnString
      cases caching with
      | false => exact .inl rfl
      | true =>
        simp only [if_true]
        cases addStringToCache cache ex (cacheKey c i) s t with
        | none => exact .inr ⟨trivial, rfl⟩
        | some c => exact .inl rfl
    refine ⟨hret _, ?_⟩
    simp only [formatString]
    by_cases hs : s = []
    · simp only [hs, if_true]
      rw [hs] at hret
      exact hret _
    · simp only [hs, if_false]
      cases hy : Formatter.tryNew L.fmt s t (L.icuLanguage t) with
      | panic => exact .inl rfl
      | err e =>
        cases e with
        | noGrammar => exact hret _
        | _ => exact .inl rfl
      | ok f =>
        cases caching with
        | false => exact .inl rfl
        | true =>
          refine .inl ?_
          simp only [not_true, if_false]
          unfold cacheFormatter
          cases hg : AMap.get cache tag with
          | none =>
            simp only [Option.isSome_none, Bool.false_eq_true, not_false_eq_true, if_true, AMap.get_insert_self,
              AMap.get_cons, formatCached]
          | some m =>
            simp only [Option.isSome_some, not_true, if_false, AMap.get_insert_self, formatCached]

/-- **C32, without fallback the default language is never consulted.** Providers that agree in what they have for the
requested tag give the same answer and leave the same cache, whatever they say of the default language and of other
tags. -/
theorem C32_no_fallback_no_default (L : LocEnv D F P) (p : Provider P) (cache : Cache) (c i tag : Str) (caching : Bool)
    (values : AMap Str (PValue D F)) (h : p.string c i tag = L.provider.string c i tag) :
    actualLiteral { L with provider := p } cache c i tag false caching = actualLiteral L cache c i tag false caching ∧
    actualFormat { L with provider := p } cache c i values tag false caching =
      actualFormat L cache c i values tag false caching := by
  have hf : fetch { L with provider := p } c i tag false = fetch L c i tag false := by
    unfold fetch
    simp only [h]
    cases L.provider.string c i tag with
    | error e => rfl
    | ok o => cases o <;> rfl
  constructor
  · unfold actualLiteral; simp only [hf]
  · unfold actualFormat; simp only [hf]

/-! ### C34: nested localisation data -/

theorem resolve_replaced {L : LocEnv D F P} {tag : Str} {fb : Bool} {vs vs' : List (Str × PValue D F)}
    (h : AllReplaced L tag fb vs vs') : ∀ rest acc, resolveValues L tag fb false (vs ++ rest) acc [] =
      resolveValues L tag fb false rest (vs'.foldl (fun m x => m.insert x.1 x.2) acc) [] := by
  induction h with
  | nil => intro rest acc; rfl
  | @cons name v v' vs vs' hv hvs ih =>
    intro rest acc
    rw [List.cons_append]
    cases hv with
    | @nested c i w s t ha =>
      have hn := actualData_nil L tag fb c i w
      simp only [resolveValues]
      generalize actualData L tag fb false c i w [] = x at ha hn ⊢
      obtain ⟨x1, x2⟩ := x
      simp only at ha hn
      subst ha hn
      simp only
      rw [ih]
      rfl
    | other ho =>
      have : resolveValues L tag fb false ((name, v) :: (vs ++ rest)) acc [] =
          resolveValues L tag fb false (vs ++ rest) (acc.insert name v) [] := by
        cases v with
        | localisationData c i w => exact absurd rfl (ho c i w)
        | _ => simp only [resolveValues]
      rw [this, ih]
      rfl

/-- **C34.** Localisation data without values is the string as it is. With values it is the pattern formatted with every
nested item replaced by its own text; if a nested item fails, its failure is the answer (in the order of the iteration
the first that fails). -/
theorem C34_nested_data_resolves (L : LocEnv D F P) (tag : Str) (fb : Bool) (c i : Str) :
    (actualData L tag fb false c i none []).1 = (actualLiteral L [] c i tag fb false).1 ∧
    (∀ vs vs', AllReplaced L tag fb vs vs' → (actualData L tag fb false c i (some vs) []).1 =
      (actualFormat L [] c i (vs'.foldl (fun m x => m.insert x.1 x.2) []) tag fb false).1) ∧
    (∀ vs vs' name c' i' vs'' rest, AllReplaced L tag fb vs vs' →
      (∀ e, (actualData L tag fb false c' i' vs'' []).1 = .err e →
        (actualData L tag fb false c i (some (vs ++ (name, .localisationData c' i' vs'') :: rest)) []).1 = .err e) ∧
      ((actualData L tag fb false c' i' vs'' []).1 = .panic →
        (actualData L tag fb false c i (some (vs ++ (name, .localisationData c' i' vs'') :: rest)) []).1 = .panic)) := by
  refine ⟨by simp only [actualData], fun vs vs' h => ?_, fun vs vs' name c' i' vs'' rest h => ?_⟩
  · have := resolve_replaced h [] []
    rw [List.append_nil] at this
    simp only [actualData, this, resolveValues]
  · have hn := actualData_nil L tag fb c' i' vs''
    rw [actualData, resolve_replaced h, resolveValues]
    generalize actualData L tag fb false c' i' vs'' [] = x at hn ⊢
    obtain ⟨x1, x2⟩ := x
    constructor
    · rintro e rfl; rfl
    · rintro rfl; rfl

/-- The two cases of C34 are all cases. -/
theorem C34_cases (L : LocEnv D F P) (tag : Str) (fb : Bool) (vs : List (Str × PValue D F)) :
    (∃ vs', AllReplaced L tag fb vs vs') ∨
    ∃ pre pre' name c i w rest, vs = pre ++ (name, .localisationData c i w) :: rest ∧ AllReplaced L tag fb pre pre' ∧
      ∀ r, (actualData L tag fb false c i w []).1 ≠ .ok r := by
  induction vs with
  | nil => exact .inl ⟨[], .nil⟩
  | cons x rest ih =>
    obtain ⟨name, v⟩ := x
    have hgo : ∀ v', Replaced L tag fb v v' → (∃ vs', AllReplaced L tag fb ((name, v) :: rest) vs') ∨
        ∃ pre pre' name' c i w rest', (name, v) :: rest = pre ++ (name', .localisationData c i w) :: rest' ∧
          AllReplaced L tag fb pre pre' ∧ ∀ r, (actualData L tag fb false c i w []).1 ≠ .ok r := by
      intro v' hv
      rcases ih with ⟨vs', h⟩ | ⟨pre, pre', name', c, i, w, rest', h1, h2, h3⟩
      · exact .inl ⟨_, .cons hv h⟩
      · exact .inr ⟨(name, v) :: pre, (name, v') :: pre', name', c, i, w, rest', by rw [h1]; rfl, .cons hv h2, h3⟩
    by_cases hd : ∃ c i w, v = .localisationData c i w
    · obtain ⟨c, i, w, rfl⟩ := hd
      cases hx : (actualData L tag fb false c i w []).1 with
      | ok r => exact hgo _ (.nested (s := r.1) (t := r.2) hx)
      | err e => exact .inr ⟨[], [], name, c, i, w, rest, rfl, .nil, by rw [hx]; simp⟩
      | panic => exact .inr ⟨[], [], name, c, i, w, rest, rfl, .nil, by rw [hx]; simp⟩
    · exact hgo v (.other fun c i w h => hd ⟨c, i, w, h⟩)

/-- Localisation data nested `n` deep. -/
def chain : Nat → List (Str × PValue Nat Unit)
  | 0 => [("x".toList, .string "core".toList)]
  | n + 1 => [("x".toList, .localisationData "c".toList "wrap".toList (some (chain n)))]

/-- A text in `n` pairs of parentheses. -/
def wrapped : Nat → Str
  | 0 => "(core)".toList
  | n + 1 => '(' :: wrapped n ++ [')']

theorem wrap_format (v : PValue Nat Unit) (s : Str) (hv : Shows v s) :
    (actualFormat (Demo.loc (Demo.rows [("c", "wrap", "en", "({x})")])) [] "c".toList "wrap".toList
      [("x".toList, v)] "en".toList true false).1 = .ok ('(' :: s ++ [')'], "en".toList) := by
  rw [actualFormat_nil]
  have hf : fetch (Demo.loc (Demo.rows [("c", "wrap", "en", "({x})")])) "c".toList "wrap".toList "en".toList true =
      .ok ("({x})".toList, "en".toList) := rfl
  rw [hf]
  simp only [Outcome.bind_ok, shown]
  have := C14_placeholders_are_substituted Demo.env demo_standard
    [.text "(".toList, .hole "x".toList, .text ")".toList] "en".toList "en".toList [("x".toList, v)] (fun _ => s)
    (by decide +kernel) (by
      intro id hid
      have : id = "x".toList := by simpa [holes] using hid
      subst this
      exact ⟨⟨by decide, by decide +kernel⟩, v, rfl, hv⟩)
  have hsrc : source [.text "(".toList, .hole "x".toList, .text ")".toList] = "({x})".toList := by decide +kernel
  rw [hsrc] at this
  change (formatString Demo.env _ _ (some "en".toList) _).mapErr _ = _
  rw [this]
  rfl

/-- **C34, depth.** An example for each depth of nesting. -/
theorem C34_every_depth (n : Nat) :
    (actualData (Demo.loc (Demo.rows [("c", "wrap", "en", "({x})")])) "en".toList true false "c".toList "wrap".toList
      (some (chain n)) []).1 = .ok (wrapped n, "en".toList) := by
  induction n with
  | zero =>
    rw [(C34_nested_data_resolves _ _ _ _ _).2.1 (chain 0) (chain 0) (.cons (.other (by simp)) .nil)]
    exact wrap_format _ _ (.string _)
  | succ n ih =>
    rw [(C34_nested_data_resolves _ _ _ _ _).2.1 (chain (n + 1)) [("x".toList, .localised (wrapped n) "en".toList)]
      (.cons (.nested ih) .nil)]
    exact wrap_format _ _ (.localised _ _)

/-! ### Examples -/

theorem keyword_mem {n : Nat} {it : Item} {w : List Token} (h : Pattern n it w) {id k : Leaf} {sels : List (Leaf × Leaf)}
    (e : it = .pat id (some (k, sels))) : k.tok ∈ w := by
  cases h with
  | simple => cases e
  | keyword =>
    cases e
    simp
  | command => cases e

theorem content_keyword {sub : Bool} {n : Nat} {items : List Item} {ts : List Token} (h : Content sub n items ts)
    {id k : Leaf} {sels : List (Leaf × Leaf)} (hm : Item.pat id (some (k, sels)) ∈ items) : k.tok ∈ ts := by
  have push : ∀ (items : List Item) (l : Leaf) id x, Item.pat id (some x) ∈ pushText items l → Item.pat id (some x) ∈ items := by
    intro items l id x h
    unfold pushText at h
    split at h
    · next pre ls hg =>
      rcases List.mem_append.1 h with h | h
      · exact (List.dropLast_sublist _).subset h
      · simp at h
    · simpa using h
  induction h with
  | nil => cases hm
  | plain _ _ ih => exact List.mem_append_left _ (ih (push _ _ _ _ hm))
  | escaped _ _ ih => exact List.mem_append_left _ (ih (push _ _ _ _ hm))
  | number _ _ _ _ ih => exact List.mem_append_left _ (ih (by simpa using hm))
  | pattern _ hp ih =>
    rcases List.mem_append.1 hm with h | h
    · exact List.mem_append_left _ (ih h)
    · exact List.mem_append_right _ (keyword_mem hp (List.mem_singleton.1 h).symm)

theorem group_keyword {n : Nat} {ns : List Named} {ts : List Token} (h : Group n ns ts) {m : Named} (hn : m ∈ ns)
    {id k : Leaf} {sels : List (Leaf × Leaf)} (hm : Item.pat id (some (k, sels)) ∈ m.items) : k.tok ∈ ts := by
  induction h with
  | nil => cases hn
  | blank _ _ ih => exact List.mem_append_left _ (ih hn)
  | named _ _ _ _ _ _ hc _ ih =>
    rcases List.mem_append.1 hn with h | h
    · have := ih h
      simp [this]
    · rw [List.mem_singleton.1 h] at hm
      have := content_keyword hc hm
      simp [this]

/-- A string without the word `select` selects nothing. -/
theorem no_select {E : FmtEnv D F} {s : Str} {ts : List Token} (hl : lex E.icu E.grammar s = .ok ts)
    (hts : ∀ t ∈ ts, t.string ≠ "select".toList) (d : Doc) (hd : Reads E s d) : SelectsWithoutNumbers d := by
  obtain ⟨ts', hl', hsen, _⟩ := hd
  rw [hl] at hl'
  cases hl'
  intro id k sels hm hk
  exfalso
  refine hts k.tok ?_ hk
  cases hsen with
  | plain hc => exact content_keyword hc (by simpa [Doc.items, Doc.named] using hm)
  | group hc _ hg =>
    rcases (by simpa [Doc.items, Doc.named] using hm) with h | ⟨n, hn, h⟩
    · exact List.mem_append_left _ (content_keyword hc h)
    · exact List.mem_append_right _ (List.mem_cons_of_mem _ (group_keyword hg hn h))

/-- Calls with formatting, fallback, plain texts and nested data. -/
def demoCalls : List (Request Nat Unit) :=
  [Demo.fmt "c" "hi" [("x", .inl "you")] "de", Demo.lit "c" "bye", Demo.fmt "c" "hi" [("x", .inl "me")] "de",
    .data "c".toList "hi".toList (some [("x".toList, .localisationData "c".toList "bye".toList none)]) none none none]

/-- The strings of the example. -/
def demoFew : Demo.Rows := Demo.rows [("c", "hi", "en", "hello {x}"), ("c", "bye", "en", "bye")]

theorem demo_string {r : Demo.Rows} {c i tag s t : Str} (h : (Demo.provider r).string c i tag = .ok (some (s, t))) :
    (c, i, t, s) ∈ r ∧ (t = tag ∨ t = tag.takeWhile (· ≠ '-')) := by
  simp only [Demo.provider] at h
  have hfind : ∀ t' x, (r.find? fun x => x.1 = c ∧ x.2.1 = i ∧ x.2.2.1 = t') = some x →
      x ∈ r ∧ x.1 = c ∧ x.2.1 = i ∧ x.2.2.1 = t' := fun t' x hx =>
    ⟨List.mem_of_find?_eq_some hx, by simpa using List.find?_some hx⟩
  split at h
  · next x hx =>
    cases h
    rcases Option.or_eq_some_iff.1 hx with hx | ⟨_, hx⟩
    · obtain ⟨h1, h2, h3, h4⟩ := hfind _ _ hx
      obtain ⟨a, b, c, d⟩ := x
      simp only at h2 h3 h4
      subst h2 h3
      exact ⟨h1, .inl h4⟩
    · obtain ⟨h1, h2, h3, h4⟩ := hfind _ _ hx
      obtain ⟨a, b, c, d⟩ := x
      simp only at h2 h3 h4
      subst h2 h3
      exact ⟨h1, .inr h4⟩
  · cases h

theorem demoFew_coherent : Coherent (Demo.loc demoFew).provider := by
  intro c i tag s t h
  have hm := (demo_string h).1
  simp only [demoFew, Demo.rows, List.map_cons, List.map_nil, List.mem_cons, List.not_mem_nil, or_false] at hm
  rcases hm with h | h <;> cases h <;> rfl

theorem demoFew_numbers {c i : Str} (tag s t : Str) (h : (Demo.loc demoFew).provider.string c i tag = .ok (some (s, t))) :
    ∀ d, Reads (Demo.loc demoFew).fmt s d → SelectsWithoutNumbers d := by
  have hm := (demo_string h).1
  have hs : s = "hello {x}".toList ∨ s = "bye".toList := by
    simp only [demoFew, Demo.rows, List.map_cons, List.map_nil, List.mem_cons, List.not_mem_nil, or_false] at hm
    rcases hm with h | h
    · exact .inl (congrArg (·.2.2.2) h)
    · exact .inr (congrArg (·.2.2.2) h)
  have hlex : ∀ s, (match lex Demo.env.icu Demo.env.grammar s with
      | .ok ts => decide (∀ t ∈ ts, t.string ≠ "select".toList)
      | .error _ => false) = true → ∀ d, Reads Demo.env s d → SelectsWithoutNumbers d := by
    intro s hs
    cases hl : lex Demo.env.icu Demo.env.grammar s with
    | ok ts =>
      rw [hl] at hs
      exact no_select hl (of_decide_eq_true hs)
    | error e => rw [hl] at hs; cases hs
  rcases hs with rfl | rfl <;> exact hlex _ (by decide +kernel)

/-- The conditions of C29 are met by the calls. -/
theorem demoCalls_tame : Tame (Demo.loc demoFew) (callsUses "en".toList true demoCalls) where
  slash := by decide +kernel
  fallback := by decide +kernel
  kinds := by
    intro u hu v hv h1 h2 h3 h4
    exact absurd ⟨h1, h2, h3, h4⟩ ((by decide +kernel : ∀ u ∈ callsUses "en".toList true demoCalls,
      ∀ v ∈ callsUses "en".toList true demoCalls, ¬ (u.component = v.component ∧ u.identifier = v.identifier ∧
        u.formatted = true ∧ v.formatted = false)) u hu v hv)
  numbers := fun _ _ _ tag s t h => demoFew_numbers tag s t h

theorem noPanic_of_answers (L : LocEnv Nat Unit Unit) (calls : List (Request Nat Unit)) :
    ∀ l, none ∉ Demo.answers L l calls → NoPanic L (fun _ => ()) l calls := by
  induction calls with
  | nil => intro l _; trivial
  | cons r rest ih =>
    intro l h
    simp only [Demo.answers, List.mem_cons, not_or] at h
    refine ⟨fun hp => ?_, ih _ h.2⟩
    rw [hp] at h
    exact h.1 rfl

/-- C29 at work: the last call is answered as without cache. -/
example : Coherent (Demo.loc demoFew).provider ∧
    Tame (Demo.loc demoFew) (callsUses (Demo.start true).tag (Demo.start true).fallback (demoCalls.take 3 ++ demoCalls.drop 3)) ∧
    NoPanic (Demo.loc demoFew) (fun _ => ()) (Demo.start true) (demoCalls.take 3) :=
  ⟨demoFew_coherent, demoCalls_tame, noPanic_of_answers _ _ _ (by decide +kernel)⟩

example : Demo.answers (Demo.loc demoFew) (Demo.start true) demoCalls =
    [Demo.say "hello you", Demo.say "bye", Demo.say "hello me", Demo.say "hello bye"] := by decide +kernel

end Verif.Props
