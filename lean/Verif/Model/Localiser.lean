import Verif.Model.Formatter
/-
Model of crates/localiser/src/localiser.rs, without the feature `sync` (for that see Model/LocaliserSync.lean).

The provider is a parameter that answers every question always the same way. Language tags are their texts: `LanguageTag`
compares and hashes by its text (crates/utility/src/language.rs:53), so the cache does not see anything else.
-/
namespace Verif

variable {D F P : Type}

/-- The grammar characters of pattern strings, crates/localiser/src/localiser.rs:145. -/
def patternGrammar : Str := "{}`#".toList

/-- Formatting a pattern string without cache, crates/localiser/src/localiser.rs:1034-1064: an empty string and a string
without grammar characters are returned as they are. -/
def formatString (E : FmtEnv D F) (string tag : Str) (icuLanguage : Option Str) (values : AMap Str (PValue D F)) :
    FmtM (Str × Str) :=
  if string = [] then .ok (string, tag)
  else
    match Formatter.tryNew E string tag icuLanguage with
    | .err .noGrammar => .ok (string, tag)
    | .err e => .err e
    | .panic => .panic
    | .ok f => (f.format E values).1

/-- What the localiser asks a provider, crates/provider/core/src/provider.rs: `LocalisationProviderTrait::string` and the
field `default` of the result of `component_details`. -/
structure Provider (P : Type) where
  string : (component identifier tag : Str) → Except P (Option (Str × Str))
  default : (component : Str) → Except P Str

/-- `LocaliserError`, crates/localiser/src/error.rs. `P` are the errors of the provider. -/
inductive LocErr (P : Type) where
  | provider (e : P)
  | formatter (e : FormatterError)
  | stringNotFound (component identifier tag : Str) (fallback : Bool)
  | cacheEntry (component identifier : Str)
  | neverReached

abbrev LocM (P : Type) := Outcome (LocErr P)

/-- What requests use of the localiser besides its cache. `icuLanguage` is `none` for tags that ICU does not read
(`LanguageTag::icu_language` panics then). -/
structure LocEnv (D F P : Type) where
  fmt : FmtEnv D F
  provider : Provider P
  icuLanguage : Str → Option Str

/-- `CacheData`, crates/localiser/src/localiser.rs:1309-1312. -/
inductive CacheData where
  | localised (string tag : Str)
  | formatter (f : Formatter)

/-- The field `cache`: for each language tag a map from component/identifier. -/
abbrev Cache := AMap Str (AMap Str CacheData)

/-- The key `combined`, crates/localiser/src/localiser.rs:950-952 and 1141-1143. -/
def cacheKey (component identifier : Str) : Str := component ++ '/' :: identifier

/-- The look-up of the provider, crates/localiser/src/localiser.rs:994-1031 and 1168-1205. -/
def fetch (L : LocEnv D F P) (component identifier tag : Str) (fallback : Bool) : LocM P (Str × Str) :=
  match L.provider.string component identifier tag with
  | .error e => .err (.provider e)
  | .ok (some r) => .ok r
  | .ok none =>
    if ¬ fallback then .err (.stringNotFound component identifier tag false)
    else
      match L.provider.default component with
      | .error e => .err (.provider e)
      | .ok d =>
        match L.provider.string component identifier d with
        | .error e => .err (.provider e)
        | .ok (some r) => .ok r
        | .ok none => .err (.stringNotFound component identifier tag true)

/-- `add_string_to_cache`, crates/localiser/src/localiser.rs:1262-1304: `none` is the failing `unwrap`. `tag` is the
tag of the string; `languageExists` was found out for the tag of the request. -/
def addStringToCache (cache : Cache) (languageExists : Bool) (key string tag : Str) : Option Cache :=
  if ¬ languageExists then some (cache.insert tag [(key, .localised string tag)])
  else
    match cache.get tag with
    | none => none
    | some m => some (cache.insert tag (m.insert key (.localised string tag)))

/-- The string is returned after it was added to the cache, if caching. -/
def returnString (cache : Cache) (caching languageExists : Bool) (key string tag : Str) : LocM P (Str × Str) × Cache :=
  if caching then
    match addStringToCache cache languageExists key string tag with
    | none => (.panic, cache)
    | some cache => (.ok (string, tag), cache)
  else (.ok (string, tag), cache)

/-- Use of a cached formatter, which stays in the cache with its numbers, crates/localiser/src/localiser.rs:969-977 and
1116-1120. -/
def formatCached (E : FmtEnv D F) (cache : Cache) (m : AMap Str CacheData) (tag key : Str) (f : Formatter)
    (values : AMap Str (PValue D F)) : LocM P (Str × Str) × Cache :=
  ((f.format E values).1.mapErr .formatter,
    cache.insert tag (m.insert key (.formatter (f.format E values).2)))

/-- The last part of `actual_format`, from line 1066 on: the formatter is put in the cache, looked up again and used. -/
def cacheFormatter (E : FmtEnv D F) (cache : Cache) (languageExists : Bool) (tag key : Str) (f : Formatter)
    (values : AMap Str (PValue D F)) : LocM P (Str × Str) × Cache :=
  let stored :=
    if ¬ languageExists then some (cache.insert tag [(key, .formatter f)])
    else
      match cache.get tag with
      | none => none
      | some m => some (cache.insert tag (m.insert key (.formatter f)))
  match stored with
  | none => (.panic, cache)
  | some cache =>
    match cache.get tag with
    | none => (.panic, cache)
    | some m =>
      match m.get key with
      | none => (.panic, cache)
      | some (.localised _ _) => (.err .neverReached, cache)
      | some (.formatter f) => formatCached E cache m tag key f values

/-- `actual_format`, crates/localiser/src/localiser.rs:941-1130: the result and the cache afterwards. -/
def actualFormat (L : LocEnv D F P) (cache : Cache) (component identifier : Str) (values : AMap Str (PValue D F))
    (tag : Str) (fallback caching : Bool) : LocM P (Str × Str) × Cache :=
  let key := cacheKey component identifier
  let entry := (cache.get tag).bind fun m => (m.get key).map fun d => (m, d)
  match entry with
  | some (_, .localised s t) => (.ok (s, t), cache)
  | some (m, .formatter f) => formatCached L.fmt cache m tag key f values
  | none =>
    let languageExists := (cache.get tag).isSome
    match fetch L component identifier tag fallback with
    | .err e => (.err e, cache)
    | .panic => (.panic, cache)
    | .ok (s, t) =>
      if s = [] then returnString cache caching languageExists key s t
      else
        match Formatter.tryNew L.fmt s t (L.icuLanguage t) with
        | .err .noGrammar => returnString cache caching languageExists key s t
        | .err e => (.err (.formatter e), cache)
        | .panic => (.panic, cache)
        | .ok f =>
          if ¬ caching then ((f.format L.fmt values).1.mapErr .formatter, cache)
          else cacheFormatter L.fmt cache languageExists tag key f values

/-- `actual_literal`, crates/localiser/src/localiser.rs:1133-1213. -/
def actualLiteral (L : LocEnv D F P) (cache : Cache) (component identifier tag : Str) (fallback caching : Bool) :
    LocM P (Str × Str) × Cache :=
  let key := cacheKey component identifier
  let entry := (cache.get tag).bind fun m => m.get key
  match entry with
  | some (.localised s t) => (.ok (s, t), cache)
  | some (.formatter _) => (.err (.cacheEntry component identifier), cache)
  | none =>
    match fetch L component identifier tag fallback with
    | .err e => (.err e, cache)
    | .panic => (.panic, cache)
    | .ok (s, t) => returnString cache caching (cache.get tag).isSome key s t

mutual
/-- `actual_format_localisation_data`, crates/localiser/src/localiser.rs:1215-1260. The call stack is unbounded. -/
def actualData (L : LocEnv D F P) (tag : Str) (fallback caching : Bool) (component identifier : Str)
    (values : Option (List (Str × PValue D F))) (cache : Cache) : LocM P (Str × Str) × Cache :=
  match values with
  | none => actualLiteral L cache component identifier tag fallback caching
  | some vs =>
    match resolveValues L tag fallback caching vs [] cache with
    | (.ok values, cache) => actualFormat L cache component identifier values tag fallback caching
    | (.err e, cache) => (.err e, cache)
    | (.panic, cache) => (.panic, cache)

/-- The loop over the values, lines 1232-1250: localisation data is replaced by its text. The list is in the order of the
iteration, which is arbitrary. -/
def resolveValues (L : LocEnv D F P) (tag : Str) (fallback caching : Bool) (values : List (Str × PValue D F))
    (acc : AMap Str (PValue D F)) (cache : Cache) : LocM P (AMap Str (PValue D F)) × Cache :=
  match values with
  | [] => (.ok acc, cache)
  | (name, .localisationData c i vs) :: rest =>
    match actualData L tag fallback caching c i vs cache with
    | (.ok (s, t), cache) => resolveValues L tag fallback caching rest (acc.insert name (.localised s t)) cache
    | (.err e, cache) => (.err e, cache)
    | (.panic, cache) => (.panic, cache)
  | (name, v) :: rest => resolveValues L tag fallback caching rest (acc.insert name v) cache
end

/-- The fields of `Localiser` that change, crates/localiser/src/localiser.rs:39-52; `S` is the script data. -/
structure Localiser (S : Type) where
  cache : Cache
  fallback : Bool
  caching : Bool
  tag : Str
  script : S

/-- Calls of the public functions, crates/localiser/src/localiser.rs:223-935. `None` for a tag stands for the functions
`…_with_defaults`, which take tag and flags from the defaults. -/
inductive Request (D F : Type) where
  | format (component identifier : Str) (values : AMap Str (PValue D F)) (tag : Option Str)
      (fallback caching : Option Bool)
  | literal (component identifier : Str) (tag : Option Str) (fallback caching : Option Bool)
  | data (component identifier : Str) (values : Option (List (Str × PValue D F))) (tag : Option Str)
      (fallback caching : Option Bool)
  | defaults (tag : Option Str) (fallback caching : Option Bool)

/-- `defaults`, crates/localiser/src/localiser.rs:495-540. -/
def Localiser.setDefaults {S : Type} (scriptOf : Str → S) (l : Localiser S) (tag : Option Str)
    (fallback caching : Option Bool) : Localiser S :=
  let l := match tag with
    | some t => { l with tag := t, script := scriptOf t }
    | none => l
  let l := match fallback with
    | some b => { l with fallback := b }
    | none => l
  match caching with
  | some b => { l with caching := b }
  | none => l

/-- One call: `none` for a call that returns no text (`defaults`). -/
def Localiser.call {S : Type} (L : LocEnv D F P) (scriptOf : Str → S) (l : Localiser S) :
    Request D F → Option (LocM P (Str × Str)) × Localiser S
  | .format c i vs tag fallback caching =>
    let r := actualFormat L l.cache c i vs (tag.getD l.tag) (fallback.getD l.fallback) (caching.getD l.caching)
    (some r.1, { l with cache := r.2 })
  | .literal c i tag fallback caching =>
    let r := actualLiteral L l.cache c i (tag.getD l.tag) (fallback.getD l.fallback) (caching.getD l.caching)
    (some r.1, { l with cache := r.2 })
  | .data c i vs tag fallback caching =>
    let r := actualData L (tag.getD l.tag) (fallback.getD l.fallback) (caching.getD l.caching) c i vs l.cache
    (some r.1, { l with cache := r.2 })
  | .defaults tag fallback caching => (none, l.setDefaults scriptOf tag fallback caching)

/-- The localiser after calls. -/
def Localiser.after {S : Type} (L : LocEnv D F P) (scriptOf : Str → S) (l : Localiser S) (calls : List (Request D F)) :
    Localiser S :=
  calls.foldl (fun l r => (l.call L scriptOf r).2) l

end Verif
