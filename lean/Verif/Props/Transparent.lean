import Verif.Lemmas.Transparent
import Verif.Props.Localiser
/-
Property theorems C29, C30 and C87, exactly: what the cache can hold, and which requests can be answered otherwise than without
caching, or panic, or fail, after any other requests, /repo/crates/localiser/src/localiser.rs.
-/
namespace Verif.Props
open Verif Verif.Spec Verif.LocaliserLemmas

variable {D F P S : Type}

theorem held_after (L : LocEnv D F P) (scriptOf : Str → S) (l : Localiser S) (hl : l.cache = []) {calls : List (Request D F)}
    (hp : NoPanic L scriptOf l calls) : Held L (l.after L scriptOf calls).cache :=
  history_held scriptOf calls l (by rw [hl]; intro t m h; cases h) hp

/-- **C29, the cache.** After requests that do not panic the cache of a new localiser can have an entry exactly if it is the
string with the key that is found under the language, or a used formatter of a string with the key that is found when the language is
asked for. -/
theorem C29_entries_iff (L : LocEnv D F P) (scriptOf : Str → S) (l : Localiser S) (hl : l.cache = []) (tag key : Str) (e : CacheData) :
    (∃ calls, NoPanic L scriptOf l calls ∧
      ((AMap.get (l.after L scriptOf calls).cache tag).bind fun m => m.get key) = some e) ↔ CanHold L tag key e := by
  constructor
  · rintro ⟨calls, hp, h⟩
    cases hm : AMap.get (l.after L scriptOf calls).cache tag with
    | none => rw [hm] at h; cases h
    | some m => rw [hm] at h; exact (held_after L scriptOf l hl hp tag m hm).2 key e h
  · intro h
    obtain ⟨calls, hp, ha⟩ := hold_reached scriptOf l hl h
    refine ⟨calls, hp, ?_⟩
    rw [ha]
    simp [AMap.get_cons]

theorem plain_literal (L : LocEnv D F P) (scriptOf : Str → S) (l : Localiser S) (c i tag : Str) (fallback : Bool) (caching : Option Bool) :
    plainAnswer L scriptOf l (.literal c i (some tag) (some fallback) caching) = some (fetch L c i tag fallback) := by
  simp [plainAnswer, uncached, Localiser.call, actualLiteral_nil]

theorem plain_format (L : LocEnv D F P) (scriptOf : Str → S) (l : Localiser S) (c i tag : Str) (values : AMap Str (PValue D F))
    (fallback : Bool) (caching : Option Bool) :
    plainAnswer L scriptOf l (.format c i values (some tag) (some fallback) caching) =
      some (actualFormat L [] c i values tag fallback false).1 := rfl

/-- **C29, strings.** The answer to a request for a string as it is can differ from the one without caching exactly if the cache can hold another
string with its key, or a formatter, or if the request can panic (C30). -/
theorem C29_literal_differs_iff (L : LocEnv D F P) (scriptOf : Str → S) (l : Localiser S) (hl : l.cache = []) (c i tag : Str)
    (fallback caching : Bool) :
    CanDiffer L scriptOf l (.literal c i (some tag) (some fallback) (some caching)) ↔
      (∃ s, HoldsString L tag (cacheKey c i) s ∧ fetch L c i tag fallback ≠ .ok (s, tag)) ∨
      (∃ f, HoldsFormatter L tag (cacheKey c i) f) ∨
      caching = true ∧ ∃ s t, Stranded L c i tag s t fallback := by
  constructor
  · rintro ⟨calls, hp, h⟩
    have hh := held_after L scriptOf l hl hp
    rw [plain_literal] at h
    generalize l.after L scriptOf calls = l' at hh h
    simp only [Localiser.call, Option.getD_some, actualLiteral] at h
    cases hm : AMap.get l'.cache tag with
    | none =>
      simp only [hm, Option.bind_none, Option.isSome_none] at h
      cases hf : fetch L c i tag fallback with
      | err e => simp [hf] at h
      | panic => simp [hf] at h
      | ok r => cases caching <;> simp [hf, returnString, addStringToCache] at h
    | some m =>
      simp only [hm, Option.bind_some, Option.isSome_some] at h
      cases hk : m.get (cacheKey c i) with
      | some e =>
        have := (hh tag m hm).2 _ _ hk
        cases e with
        | formatter f => exact .inr (.inl ⟨f, this⟩)
        | localised s t =>
          obtain ⟨rfl, hs⟩ := this
          refine .inl ⟨s, hs, fun hf => ?_⟩
          simp [hk, hf] at h
      | none =>
        cases hf : fetch L c i tag fallback with
        | err e => simp [hk, hf] at h
        | panic => simp [hk, hf] at h
        | ok r =>
          obtain ⟨s, t⟩ := r
          cases caching with
          | false => simp [hk, hf, returnString] at h
          | true =>
            cases ht : AMap.get l'.cache t with
            | some m' => simp [hk, hf, returnString, addStringToCache, ht] at h
            | none =>
              obtain ⟨⟨k, e, hke⟩, hall⟩ := hh tag m hm
              refine .inr (.inr ⟨rfl, s, t, hf, ?_, k, e, ?_, hall k e hke⟩)
              · rintro rfl; rw [hm] at ht; cases ht
              · rintro rfl; rw [hk] at hke; cases hke
  · rintro (⟨s, h, hne⟩ | ⟨f, h⟩ | ⟨rfl, s, t, hf, ht, key, e, hkey, h⟩)
    · obtain ⟨calls, hp, ha⟩ := hold_reached scriptOf l hl (e := .localised s tag) ⟨rfl, h⟩
      refine ⟨calls, hp, ?_⟩
      rw [plain_literal, ha]
      simpa [Localiser.call, actualLiteral, AMap.get_cons] using fun h => hne h.symm
    · obtain ⟨calls, hp, ha⟩ := hold_reached scriptOf l hl (e := .formatter f) h
      refine ⟨calls, hp, ?_⟩
      rw [plain_literal, ha]
      have hf := fetch_found L c i tag fallback
      intro he
      simp [Localiser.call, actualLiteral, AMap.get_cons] at he
      rw [← he] at hf
      cases hf
    · obtain ⟨calls, hp, ha⟩ := hold_reached scriptOf l hl h
      refine ⟨calls, hp, ?_⟩
      rw [plain_literal, ha]
      simp [Localiser.call, actualLiteral, AMap.get_cons, hkey, hf, returnString, addStringToCache, Ne.symm ht]

/-- **C30, strings.** A request for a string as it is can panic after requests that do not panic exactly if it caches, the string
is found under another language, and the cache can hold something else for the language asked for. -/
theorem C30_literal_panics_iff (L : LocEnv D F P) (scriptOf : Str → S) (l : Localiser S) (hl : l.cache = []) (c i tag : Str)
    (fallback caching : Bool) :
    CanPanic L scriptOf l (.literal c i (some tag) (some fallback) (some caching)) ↔
      caching = true ∧ ∃ s t, Stranded L c i tag s t fallback := by
  constructor
  · rintro ⟨calls, hp, h⟩
    have hh := held_after L scriptOf l hl hp
    generalize l.after L scriptOf calls = l' at hh h
    obtain ⟨hca, m, s, t, hm, hk, hf, ht⟩ := (C30_literal_panics_exactly_partial L l'.cache c i tag fallback caching).1
      (by simpa [Localiser.call] using h)
    obtain ⟨⟨k, e, hke⟩, hall⟩ := hh tag m hm
    refine ⟨hca, s, t, found_fetch hf, ?_, k, e, ?_, hall k e hke⟩
    · rintro rfl; rw [hm] at ht; cases ht
    · rintro rfl; rw [hk] at hke; cases hke
  · rintro ⟨rfl, s, t, hf, ht, key, e, hkey, h⟩
    obtain ⟨calls, hp, ha⟩ := hold_reached scriptOf l hl h
    refine ⟨calls, hp, ?_⟩
    rw [ha]
    simp [Localiser.call, actualLiteral, AMap.get_cons, hkey, hf, returnString, addStringToCache, Ne.symm ht]

/-- What a request to format a pattern answers, in whatever state the cache is. -/
theorem format_cases {L : LocEnv D F P} {cache : Cache} (hh : Held L cache) (c i tag : Str) (values : AMap Str (PValue D F))
    (fallback caching : Bool) :
    let answer := (actualFormat L cache c i values tag fallback caching).1
    answer = (actualFormat L [] c i values tag fallback false).1 ∨
    (∃ s, HoldsString L tag (cacheKey c i) s ∧ answer = .ok (s, tag)) ∨
    (∃ f, HoldsFormatter L tag (cacheKey c i) f ∧ answer = (f.format L.fmt values).1.mapErr .formatter) ∨
    answer = .panic ∧ caching = true ∧ ∃ s t, Stranded L c i tag s t fallback ∧ NotAPattern L s t := by
  dsimp only
  rw [actualFormat_nil]
  unfold actualFormat
  dsimp only
  have hret : ∀ {s t : Str}, fetch L c i tag fallback = .ok (s, t) → NotAPattern L s t →
      (AMap.get cache tag).bind (fun m => (m.get (cacheKey c i)).map fun d => (m, d)) = none →
      (returnString (P := P) cache caching (AMap.get cache tag).isSome (cacheKey c i) s t).1 = .ok (s, t) ∨
      (returnString (P := P) cache caching (AMap.get cache tag).isSome (cacheKey c i) s t).1 = .panic ∧ caching = true ∧
        ∃ s t, Stranded L c i tag s t fallback ∧ NotAPattern L s t := by
    intro s t hf hs hen
    unfold returnString addStringToCache
    cases caching with
    | false => exact .inl rfl
    | true =>
      cases hm : AMap.get cache tag with
      | none => exact .inl rfl
      | some m =>
        have hk := entry_none hen m hm
        cases ht : AMap.get cache t with
        | some m' => exact .inl (by simp)
        | none =>
          obtain ⟨⟨k, e, hke⟩, hall⟩ := hh tag m hm
          refine .inr ⟨by simp, rfl, s, t, ⟨hf, ?_, k, e, ?_, hall k e hke⟩, hs⟩
          · rintro rfl; rw [hm] at ht; cases ht
          · rintro rfl; rw [hk] at hke; cases hke
  split
  · rename_i m s t hen
    obtain ⟨hm, hk⟩ := entry_some hen
    obtain ⟨rfl, h⟩ := (hh tag m hm).2 _ _ hk
    exact .inr (.inl ⟨s, h, rfl⟩)
  · rename_i m f hen
    obtain ⟨hm, hk⟩ := entry_some hen
    exact .inr (.inr (.inl ⟨f, (hh tag m hm).2 _ _ hk, rfl⟩))
  · rename_i hen
    cases hf : fetch L c i tag fallback with
    | err e => exact .inl rfl
    | panic => exact .inl rfl
    | ok r =>
      obtain ⟨s, t⟩ := r
      simp only [Outcome.bind_ok, shown, formatString]
      by_cases hs : s = []
      · simp only [hs, if_true]
        subst hs
        rcases hret hf (.inl rfl) hen with h | h
        · exact .inl h
        · exact .inr (.inr (.inr h))
      · simp only [hs, if_false]
        cases hn : Formatter.tryNew L.fmt s t (L.icuLanguage t) with
        | panic => exact .inl rfl
        | err e =>
          have hng : e = .noGrammar ∨ e ≠ .noGrammar := Classical.em _
          rcases hng with rfl | hng
          · rcases hret hf (.inr hn) hen with h | h
            · exact .inl h
            · exact .inr (.inr (.inr h))
          · refine .inl ?_
            cases e <;> first | rfl | exact absurd rfl hng
        | ok f =>
          refine .inl ?_
          cases caching with
          | false => simp
          | true =>
            obtain ⟨cache', m, he, -⟩ := cacheFormatter_eq (P := P) L.fmt cache tag (cacheKey c i) f values
            simp [he, formatCached]

/-- The first request. -/
theorem format_empty (L : LocEnv D F P) (c i tag : Str) (values : AMap Str (PValue D F)) (fallback caching : Bool) :
    (actualFormat L [] c i values tag fallback caching).1 = (actualFormat L [] c i values tag fallback false).1 := by
  cases caching with
  | false => rfl
  | true =>
    rw [actualFormat_nil]
    unfold actualFormat shown formatString
    simp only [AMap.get_nil, Option.bind_none]
    cases fetch L c i tag fallback with
    | err e => rfl
    | panic => rfl
    | ok r =>
      obtain ⟨s, t⟩ := r
      simp only [Outcome.bind_ok, returnString]
      by_cases hs : s = []
      · simp [hs, Outcome.mapErr, addStringToCache]
      · simp only [hs, if_false]
        generalize Formatter.tryNew L.fmt s t (L.icuLanguage t) = x
        cases x with
        | ok f =>
          obtain ⟨cache', m, he, -⟩ := cacheFormatter_eq (P := P) L.fmt [] tag (cacheKey c i) f values
          simp only [AMap.get_nil, Option.isSome_none] at he
          simp [he, formatCached]
        | panic => rfl
        | err e => cases e <;> rfl

/-- After requests with which the cache holds only one entry. -/
theorem format_after {L : LocEnv D F P} {scriptOf : Str → S} {l : Localiser S} (hl : l.cache = []) {tag key : Str} {e : CacheData}
    (h : CanHold L tag key e) : ∃ calls, NoPanic L scriptOf l calls ∧
      ∀ c i values fallback caching, ((l.after L scriptOf calls).call L scriptOf
        (.format c i values (some tag) (some fallback) (some caching))).1 =
          some (actualFormat L [(tag, [(key, e)])] c i values tag fallback caching).1 := by
  obtain ⟨calls, hp, ha⟩ := hold_reached scriptOf l hl h
  exact ⟨calls, hp, fun c i values fallback caching => by rw [ha]; rfl⟩

theorem format_string (L : LocEnv D F P) (c i s tag : Str) (values : AMap Str (PValue D F)) (fallback caching : Bool) :
    (actualFormat L [(tag, [(cacheKey c i, .localised s tag)])] c i values tag fallback caching).1 = .ok (s, tag) := by
  simp [actualFormat, AMap.get_cons]

theorem format_formatter (L : LocEnv D F P) (c i tag : Str) (f : Formatter) (values : AMap Str (PValue D F)) (fallback caching : Bool) :
    (actualFormat L [(tag, [(cacheKey c i, .formatter f)])] c i values tag fallback caching).1 =
      (f.format L.fmt values).1.mapErr .formatter := by
  simp [actualFormat, AMap.get_cons, formatCached]

theorem format_stranded {L : LocEnv D F P} {c i tag s t key : Str} {e : CacheData} {fallback : Bool}
    (hf : fetch L c i tag fallback = .ok (s, t)) (ht : t ≠ tag) (hkey : key ≠ cacheKey c i) (hs : NotAPattern L s t)
    (values : AMap Str (PValue D F)) :
    (actualFormat L [(tag, [(key, e)])] c i values tag fallback true).1 = .panic ∧
    (actualFormat L [] c i values tag fallback false).1 = .ok (s, t) := by
  rw [actualFormat_nil]
  rcases hs with rfl | hn
  · constructor
    · simp [actualFormat, AMap.get_cons, hkey, hf, returnString, addStringToCache, Ne.symm ht]
    · simp [hf, shown, formatString, Outcome.mapErr]
  · by_cases hs : s = []
    · subst hs
      constructor
      · simp [actualFormat, AMap.get_cons, hkey, hf, returnString, addStringToCache, Ne.symm ht]
      · simp [hf, shown, formatString, Outcome.mapErr]
    · constructor
      · simp [actualFormat, AMap.get_cons, hkey, hf, returnString, addStringToCache, Ne.symm ht, hs, hn]
      · simp [hf, shown, formatString, Outcome.mapErr, hs, hn]

/-- **C29, patterns.** The answer to a request to format a pattern can differ from the one without caching exactly if the cache can hold a
string with its key and that is not the answer without caching; or a formatter that answers otherwise; or if the string is no pattern and storing it can
panic. -/
theorem C29_format_differs_iff (L : LocEnv D F P) (scriptOf : Str → S) (l : Localiser S) (hl : l.cache = []) (c i tag : Str)
    (values : AMap Str (PValue D F)) (fallback caching : Bool) :
    let r : Request D F := .format c i values (some tag) (some fallback) (some caching)
    CanDiffer L scriptOf l r ↔
      (∃ s, HoldsString L tag (cacheKey c i) s ∧ plainAnswer L scriptOf l r ≠ some (.ok (s, tag))) ∨
      (∃ f, HoldsFormatter L tag (cacheKey c i) f ∧
        plainAnswer L scriptOf l r ≠ some ((f.format L.fmt values).1.mapErr .formatter)) ∨
      caching = true ∧ ∃ s t, Stranded L c i tag s t fallback ∧ NotAPattern L s t := by
  intro r
  constructor
  · rintro ⟨calls, hp, h⟩
    have hh := held_after L scriptOf l hl hp
    simp only [r, plain_format] at h ⊢
    generalize l.after L scriptOf calls = l' at hh h
    rcases format_cases hh c i tag values fallback caching with h1 | ⟨s, h1, h2⟩ | ⟨f, h1, h2⟩ | ⟨-, h1⟩
    · exact absurd (congrArg some h1) h
    · exact .inl ⟨s, h1, fun h' => h (by rw [h', ← h2]; rfl)⟩
    · exact .inr (.inl ⟨f, h1, fun h' => h (by rw [h', ← h2]; rfl)⟩)
    · exact .inr (.inr h1)
  · rintro (⟨s, h, hne⟩ | ⟨f, h, hne⟩ | ⟨rfl, s, t, ⟨hf, ht, key, e, hkey, h⟩, hs⟩)
    · obtain ⟨calls, hp, ha⟩ := format_after (scriptOf := scriptOf) hl (e := .localised s tag) ⟨rfl, h⟩
      refine ⟨calls, hp, ?_⟩
      rw [ha, format_string]
      exact fun h => hne h.symm
    · obtain ⟨calls, hp, ha⟩ := format_after (scriptOf := scriptOf) hl (e := .formatter f) h
      refine ⟨calls, hp, ?_⟩
      rw [ha, format_formatter]
      exact fun h => hne h.symm
    · obtain ⟨calls, hp, ha⟩ := format_after (scriptOf := scriptOf) hl h
      refine ⟨calls, hp, ?_⟩
      obtain ⟨h1, h2⟩ := format_stranded hf ht hkey hs values (e := e)
      rw [ha, plain_format, h1, h2]
      exact fun h => nomatch h

/-- **C30, patterns.** A request to format a pattern can panic exactly if it panics without caching, or the cache can hold a
formatter that panics with the values, or the string is no pattern and storing it can panic. -/
theorem C30_format_panics_iff (L : LocEnv D F P) (scriptOf : Str → S) (l : Localiser S) (hl : l.cache = []) (c i tag : Str)
    (values : AMap Str (PValue D F)) (fallback caching : Bool) :
    let r : Request D F := .format c i values (some tag) (some fallback) (some caching)
    CanPanic L scriptOf l r ↔
      plainAnswer L scriptOf l r = some .panic ∨
      (∃ f, HoldsFormatter L tag (cacheKey c i) f ∧ (f.format L.fmt values).1 = .panic) ∨
      caching = true ∧ ∃ s t, Stranded L c i tag s t fallback ∧ NotAPattern L s t := by
  intro r
  constructor
  · rintro ⟨calls, hp, h⟩
    have hh := held_after L scriptOf l hl hp
    simp only [r, plain_format] at h ⊢
    generalize l.after L scriptOf calls = l' at hh h
    have h : (actualFormat L l'.cache c i values tag fallback caching).1 = .panic := by simpa [Localiser.call] using h
    rcases format_cases hh c i tag values fallback caching with h1 | ⟨s, h1, h2⟩ | ⟨f, h1, h2⟩ | ⟨-, h1⟩
    · exact .inl (by rw [← h1, h])
    · rw [h] at h2; cases h2
    · exact .inr (.inl ⟨f, h1, (mapErr_panic _ _).1 (by rw [← h2, h])⟩)
    · exact .inr (.inr h1)
  · rintro (h | ⟨f, h, hpanic⟩ | ⟨rfl, s, t, ⟨hf, ht, key, e, hkey, h⟩, hs⟩)
    · refine ⟨[], trivial, ?_⟩
      rw [plain_format] at h
      have h := Option.some.inj h
      show some (actualFormat L l.cache c i values tag fallback caching).1 = _
      rw [hl]
      rw [format_empty, h]
    · obtain ⟨calls, hp, ha⟩ := format_after (scriptOf := scriptOf) hl (e := .formatter f) h
      refine ⟨calls, hp, ?_⟩
      rw [ha, format_formatter, (mapErr_panic _ _).2 hpanic]
    · obtain ⟨calls, hp, ha⟩ := format_after (scriptOf := scriptOf) hl h
      refine ⟨calls, hp, ?_⟩
      rw [ha, (format_stranded hf ht hkey hs values (e := e)).1]

/-- **C87, strings.** A request for a string as it is can fail, after any requests that do not panic, exactly with the error without
caching, or with the error about the entry if the cache can hold a formatter with the key of the string. -/
theorem C87_literal_fails_iff (L : LocEnv D F P) (scriptOf : Str → S) (l : Localiser S) (hl : l.cache = []) (c i tag : Str)
    (fallback caching : Bool) (e : LocErr P) :
    CanFail L scriptOf l (.literal c i (some tag) (some fallback) (some caching)) e ↔
      Found L.provider c i tag fallback (.err e) ∨ e = .cacheEntry c i ∧ ∃ f, HoldsFormatter L tag (cacheKey c i) f := by
  constructor
  · rintro ⟨calls, hp, h⟩
    have hh := held_after L scriptOf l hl hp
    generalize l.after L scriptOf calls = l' at hh h
    simp only [Localiser.call, Option.getD_some, actualLiteral] at h
    cases hen : (AMap.get l'.cache tag).bind fun m => m.get (cacheKey c i) with
    | some d =>
      cases hm : AMap.get l'.cache tag with
      | none => rw [hm] at hen; cases hen
      | some m =>
        rw [hm] at hen
        cases d with
        | localised s t => simp [hm, show m.get (cacheKey c i) = _ from hen] at h
        | formatter f =>
          simp [hm, show m.get (cacheKey c i) = _ from hen] at h
          exact .inr ⟨h.symm, f, (hh tag m hm).2 _ _ hen⟩
    | none =>
      simp only [hen] at h
      have hf := fetch_found L c i tag fallback
      cases hr : fetch L c i tag fallback with
      | panic => simp [hr] at h
      | err e' =>
        simp only [hr, Option.some.injEq, Outcome.err.injEq] at h
        subst h
        rw [hr] at hf
        exact .inl hf
      | ok r =>
        simp only [hr, returnString, addStringToCache] at h
        exfalso
        revert h
        cases caching <;> simp
        split <;> simp
  · rintro (h | ⟨rfl, f, h⟩)
    · refine ⟨[], trivial, ?_⟩
      have := found_fetch h
      simp [Localiser.after, Localiser.call, actualLiteral, hl, AMap.get_nil, this]
    · obtain ⟨calls, hp, ha⟩ := hold_reached scriptOf l hl (e := .formatter f) h
      refine ⟨calls, hp, ?_⟩
      rw [ha]
      simp [Localiser.call, actualLiteral, AMap.get_cons]

/-- **C87, patterns.** A request to format a pattern can fail, after any requests that do not panic, exactly with the error without
caching, or with one of a formatter that the cache can hold with the key of the string. -/
theorem C87_format_fails_iff (L : LocEnv D F P) (scriptOf : Str → S) (l : Localiser S) (hl : l.cache = []) (c i tag : Str)
    (values : AMap Str (PValue D F)) (fallback caching : Bool) (e : LocErr P) :
    let r : Request D F := .format c i values (some tag) (some fallback) (some caching)
    CanFail L scriptOf l r e ↔ plainAnswer L scriptOf l r = some (.err e) ∨
      ∃ f e', HoldsFormatter L tag (cacheKey c i) f ∧ (f.format L.fmt values).1 = .err e' ∧ e = .formatter e' := by
  intro r
  have hmap : ∀ x : FmtM (Str × Str), x.mapErr (LocErr.formatter (P := P)) = .err e ↔ ∃ e', x = .err e' ∧ e = .formatter e' := by
    intro x
    cases x with
    | ok a => simp [Outcome.mapErr]
    | panic => simp [Outcome.mapErr]
    | err e' => simp [Outcome.mapErr, eq_comm]
  constructor
  · rintro ⟨calls, hp, h⟩
    have hh := held_after L scriptOf l hl hp
    simp only [r, plain_format] at h ⊢
    generalize l.after L scriptOf calls = l' at hh h
    have h : (actualFormat L l'.cache c i values tag fallback caching).1 = .err e := by simpa [Localiser.call] using h
    rcases format_cases hh c i tag values fallback caching with h1 | ⟨s, h1, h2⟩ | ⟨f, h1, h2⟩ | ⟨h1, -⟩
    · exact .inl (by rw [← h1, h])
    · rw [h] at h2; cases h2
    · obtain ⟨e', h3, h4⟩ := (hmap _).1 (by rw [← h2, h])
      exact .inr ⟨f, e', h1, h3, h4⟩
    · rw [h] at h1; cases h1
  · rintro (h | ⟨f, e', h, he, hee⟩)
    · refine ⟨[], trivial, ?_⟩
      rw [plain_format] at h
      show some (actualFormat L l.cache c i values tag fallback caching).1 = _
      rw [hl, format_empty, Option.some.inj h]
    · obtain ⟨calls, hp, ha⟩ := format_after (scriptOf := scriptOf) hl (e := .formatter f) h
      refine ⟨calls, hp, ?_⟩
      rw [ha, format_formatter, (hmap _).2 ⟨e', he, hee⟩]

/-! Examples: a pattern that is answered otherwise after it was asked for as it is; a request that can panic; and a string
that is always answered alike. -/

/-- The text of an answer. -/
def textOf : Option (LocM Unit (Str × Str)) → Option Str
  | some (.ok (s, _)) => some s
  | _ => none

def panicked : Option (LocM Unit (Str × Str)) → Bool
  | some .panic => true
  | _ => false

theorem panicked_eq {x : Option (LocM Unit (Str × Str))} (h : panicked x = true) : x = some .panic := by
  unfold panicked at h
  split at h
  · rfl
  · cases h

example : CanDiffer (Demo.loc demoRows) (fun _ => ()) (Demo.start true)
    (.format "c".toList "hi".toList (Demo.vals [("x", .inl "you")]) (some "en".toList) (some true) (some true)) := by
  refine (C29_format_differs_iff _ _ _ rfl _ _ _ _ _ _).2 (.inl ⟨"hello {x}".toList, ⟨"c".toList, "hi".toList, "en".toList, true, rfl, rfl⟩, ?_⟩)
  intro h
  have := congrArg textOf h
  revert this
  decide +kernel

example : CanPanic (Demo.loc demoRows) (fun _ => ()) (Demo.start true)
    (.literal "c".toList "bye".toList (some "en-ZA".toList) (some true) (some true)) :=
  ⟨[Demo.fmt "c" "hi" [("x", .inl "you")] "en-ZA"], noPanic_of_answers _ _ _ (by decide +kernel), panicked_eq (by decide +kernel)⟩

example : CanFail (Demo.loc demoRows) (fun _ => ()) (Demo.start true)
    (.literal "c".toList "hi".toList (some "en".toList) (some true) (some true)) (.cacheEntry "c".toList "hi".toList) :=
  ⟨[Demo.fmt "c" "hi" [("x", .inl "you")]], noPanic_of_answers _ _ _ (by decide +kernel), by rfl⟩

/-- One string under `en`; a provider that knows no default language. -/
def byeLoc : LocEnv Nat Unit Unit where
  fmt := Demo.env
  provider :=
    { string := fun c i tag => if c = "c".toList ∧ i = "bye".toList ∧ tag = "en".toList then .ok (some ("bye".toList, tag)) else .ok none
      default := fun _ => .error () }
  icuLanguage := some

theorem byeLoc_fetch {c i tag s t : Str} {fb : Bool} (h : fetch byeLoc c i tag fb = .ok (s, t)) :
    s = "bye".toList ∧ t = tag ∧ tag = "en".toList := by
  have hf := fetch_found byeLoc c i tag fb
  rw [h] at hf
  have key : ∀ {c i tag : Str} {r : Str × Str}, byeLoc.provider.string c i tag = .ok (some r) →
      r = ("bye".toList, tag) ∧ tag = "en".toList := by
    intro c i tag r h
    simp only [byeLoc] at h
    split at h
    · rename_i hc
      cases h
      exact ⟨rfl, hc.2.2⟩
    · cases h
  cases hf with
  | requested h => obtain ⟨h1, h2⟩ := key h; cases h1; exact ⟨rfl, rfl, h2⟩
  | default h1 h2 h3 => cases h2

example (values : AMap Str (PValue Nat Unit)) (caching : Bool) :
    ¬ CanDiffer byeLoc (fun _ => ()) (Demo.start true)
      (.literal "c".toList "bye".toList (some "en".toList) (some true) (some caching)) ∧
    ¬ CanDiffer byeLoc (fun _ => ()) (Demo.start true)
      (.format "c".toList "bye".toList values (some "en".toList) (some true) (some caching)) := by
  have hnew : Formatter.tryNew byeLoc.fmt "bye".toList "en".toList (byeLoc.icuLanguage "en".toList) = .err .noGrammar := by
    decide +kernel
  have hform : ∀ f key, ¬ HoldsFormatter byeLoc "en".toList key f := by
    rintro f key ⟨c, i, fb, s, t, new, v, history, -, hf, -, hn, -⟩
    obtain ⟨rfl, rfl, -⟩ := byeLoc_fetch hf
    rw [hnew] at hn
    cases hn
  have hstr : ∀ s t c i fb, ¬ Stranded byeLoc c i "en".toList s t fb := by
    rintro s t c i fb ⟨hf, ht, -⟩
    exact ht (byeLoc_fetch hf).2.1
  constructor
  · rw [C29_literal_differs_iff _ _ _ rfl]
    rintro (⟨s, ⟨c, i, tag, fb, -, hf⟩, hne⟩ | ⟨f, hf⟩ | ⟨-, s, t, h⟩)
    · obtain ⟨rfl, -, -⟩ := byeLoc_fetch hf
      exact hne rfl
    · exact hform _ _ hf
    · exact hstr _ _ _ _ _ h
  · intro hd
    rcases (C29_format_differs_iff byeLoc _ (Demo.start true) rfl _ _ _ _ _ _).1 hd with
      (⟨s, ⟨c, i, tag, fb, -, hf⟩, hne⟩ | ⟨f, hf, -⟩ | ⟨-, s, t, h, -⟩)
    · obtain ⟨rfl, -, -⟩ := byeLoc_fetch hf
      refine hne ?_
      rw [plain_format, actualFormat_nil]
      have : fetch byeLoc "c".toList "bye".toList "en".toList true = .ok ("bye".toList, "en".toList) := rfl
      simp only [this, Outcome.bind_ok, shown, formatString]
      rw [if_neg (by decide)]
      simp only [hnew]
      rfl
    · exact hform _ _ hf
    · exact hstr _ _ _ _ _ h

end Verif.Props
