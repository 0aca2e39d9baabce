import Verif.Model.Localiser
import Verif.Model.Interleave
/-
Model of crates/localiser/src/localiser.rs with the feature `sync`.

A critical section is one atomic step. Formatting with a cached formatter is one step: the thread holds the read lock of
the cache, so that no entry changes, and the write lock of the formatter. A panic in a thread that holds a write lock
poisons the lock, and every later `unwrap` on it panics; read locks are not poisoned. A panicking thread ends.
-/
namespace Verif

variable {D F P S : Type}

/-- The fields of `Localiser` that change, crates/localiser/src/localiser.rs:39-52, with the state of their locks:
`poisoned` is the lock of the cache, `broken` are the locks of the cached formatters (by language tag and key), `readers`
is the number of threads that hold the read lock of `language_tag` between two of their steps. -/
structure Shared (S : Type) where
  cache : Cache
  poisoned : Bool
  broken : Str → Str → Bool
  fallback : Bool
  caching : Bool
  tag : Str
  script : S
  readers : Nat

/-- The program of a call or of a part of it. -/
abbrev Call (S P α : Type) := Act (Shared S) (LocM P α)

def isPanic {ε α : Type} : Outcome ε α → Bool
  | .panic => true
  | _ => false

/-- Use of a cached formatter, crates/localiser/src/localiser.rs:981-986 and 1124-1127. -/
def useFormatter (E : FmtEnv D F) (s : Shared S) (m : AMap Str CacheData) (tag key : Str) (f : Formatter)
    (values : AMap Str (PValue D F)) : Shared S × Call S P (Str × Str) :=
  if s.broken tag key then (s, .done .panic)
  else
    let r := formatCached E s.cache m tag key f values
    let panics := isPanic (f.format E values).1
    ({ s with cache := r.2, broken := fun t k => if t = tag ∧ k = key then panics else s.broken t k }, .done r.1)

/-- An entry is put in the cache: the code of `add_string_to_cache`, crates/localiser/src/localiser.rs:1262-1304, and of
lines 1073-1106. `none` is the failing `unwrap`. -/
def store (s : Shared S) (languageExists : Bool) (tag key : Str) (e : CacheData) : Option (Shared S) :=
  if ¬ languageExists then
    some { s with
      cache := s.cache.insert tag [(key, e)], broken := fun t k => if t = tag then false else s.broken t k }
  else
    match s.cache.get tag with
    | none => none
    | some m => some { s with
        cache := s.cache.insert tag (m.insert key e),
        broken := fun t k => if t = tag ∧ k = key then false else s.broken t k }

/-- The step that puts an entry in the cache, then the rest. -/
def storeStep {α : Type} (languageExists : Bool) (tag key : Str) (e : CacheData) (rest : Call S P α) : Call S P α :=
  .atomic fun s =>
    if s.poisoned then (s, .done .panic)
    else
      match store s languageExists tag key e with
      | none => ({ s with poisoned := true }, .done .panic)
      | some s => (s, rest)

/-- A string is returned, after it was put in the cache if caching. -/
def syncReturn (caching languageExists : Bool) (key string tag : Str) : Call S P (Str × Str) :=
  if caching then storeStep languageExists tag key (.localised string tag) (.done (.ok (string, tag)))
  else .done (.ok (string, tag))

/-- The formatter that was put in the cache is looked up again, crates/localiser/src/localiser.rs:1103-1129. -/
def syncReuse (E : FmtEnv D F) (tag key : Str) (values : AMap Str (PValue D F)) : Call S P (Str × Str) :=
  .atomic fun s =>
    if s.poisoned then (s, .done .panic)
    else
      match s.cache.get tag with
      | none => (s, .done .panic)
      | some m =>
        match m.get key with
        | none => (s, .done .panic)
        | some (.localised _ _) => (s, .done (.err .neverReached))
        | some (.formatter f) => useFormatter E s m tag key f values

/-- `actual_format` from line 992 on, when nothing is cached. -/
def syncFormatMiss (L : LocEnv D F P) (component identifier : Str) (values : AMap Str (PValue D F)) (tag : Str)
    (fallback caching languageExists : Bool) : Call S P (Str × Str) :=
  let key := cacheKey component identifier
  match fetch L component identifier tag fallback with
  | .err e => .done (.err e)
  | .panic => .done .panic
  | .ok (s, t) =>
    if s = [] then syncReturn caching languageExists key s t
    else
      match Formatter.tryNew L.fmt s t (L.icuLanguage t) with
      | .err .noGrammar => syncReturn caching languageExists key s t
      | .err e => .done (.err (.formatter e))
      | .panic => .done .panic
      | .ok f =>
        if ¬ caching then .done ((f.format L.fmt values).1.mapErr .formatter)
        else storeStep languageExists tag key (.formatter f) (syncReuse L.fmt tag key values)

/-- `actual_format`, crates/localiser/src/localiser.rs:941-1130. -/
def syncFormat (L : LocEnv D F P) (component identifier : Str) (values : AMap Str (PValue D F)) (tag : Str)
    (fallback caching : Bool) : Call S P (Str × Str) :=
  let key := cacheKey component identifier
  .atomic fun s =>
    if s.poisoned then (s, .done .panic)
    else
      match (s.cache.get tag).bind fun m => (m.get key).map fun d => (m, d) with
      | some (_, .localised str t) => (s, .done (.ok (str, t)))
      | some (m, .formatter f) => useFormatter L.fmt s m tag key f values
      | none => (s, syncFormatMiss L component identifier values tag fallback caching (s.cache.get tag).isSome)

/-- `actual_literal`, crates/localiser/src/localiser.rs:1133-1213. -/
def syncLiteral (L : LocEnv D F P) (component identifier tag : Str) (fallback caching : Bool) : Call S P (Str × Str) :=
  let key := cacheKey component identifier
  .atomic fun s =>
    if s.poisoned then (s, .done .panic)
    else
      match (s.cache.get tag).bind fun m => m.get key with
      | some (.localised str t) => (s, .done (.ok (str, t)))
      | some (.formatter _) => (s, .done (.err (.cacheEntry component identifier)))
      | none => (s, match fetch L component identifier tag fallback with
        | .err e => .done (.err e)
        | .panic => .done .panic
        | .ok (str, t) => syncReturn caching (s.cache.get tag).isSome key str t)

mutual
/-- `actual_format_localisation_data`, crates/localiser/src/localiser.rs:1215-1260. -/
def syncData (L : LocEnv D F P) (tag : Str) (fallback caching : Bool) (component identifier : Str)
    (values : Option (List (Str × PValue D F))) : Call S P (Str × Str) :=
  match values with
  | none => syncLiteral L component identifier tag fallback caching
  | some vs => (syncValues L tag fallback caching vs []).bind fun
    | .ok values => syncFormat L component identifier values tag fallback caching
    | .err e => .done (.err e)
    | .panic => .done .panic

/-- The loop over the values, lines 1232-1250. -/
def syncValues (L : LocEnv D F P) (tag : Str) (fallback caching : Bool) (values : List (Str × PValue D F))
    (acc : AMap Str (PValue D F)) : Call S P (AMap Str (PValue D F)) :=
  match values with
  | [] => .done (.ok acc)
  | (name, .localisationData c i vs) :: rest => (syncData L tag fallback caching c i vs).bind fun
    | .ok (s, t) => syncValues L tag fallback caching rest (acc.insert name (.localised s t))
    | .err e => .done (.err e)
    | .panic => .done .panic
  | (name, v) :: rest => syncValues L tag fallback caching rest (acc.insert name v)
end

/-- The part of `defaults` that sets the language, crates/localiser/src/localiser.rs:513-519: the tag is written when
nobody holds its lock; its read lock is then held until the script data is written. (The right side of the assignment is
evaluated before the lock of the script data is taken.) -/
def syncSetTag (scriptOf : Str → S) (tag : Str) : Act (Shared S) Unit :=
  .step (fun s => s.readers == 0) (fun s => { s with tag := tag }) fun _ =>
    .atomic fun s => ({ s with readers := s.readers + 1 },
      .atomic fun s' => ({ s' with script := scriptOf s.tag },
        .atomic fun s'' => ({ s'' with readers := s''.readers - 1 }, .done ())))

/-- `defaults`, crates/localiser/src/localiser.rs:495-540. -/
def syncDefaults (scriptOf : Str → S) (tag : Option Str) (fallback caching : Option Bool) : Act (Shared S) Unit :=
  let setTag : Act (Shared S) Unit :=
    match tag with
    | some t => syncSetTag scriptOf t
    | none => .done ()
  let setFallback : Act (Shared S) Unit :=
    match fallback with
    | some b => .atomic fun s => ({ s with fallback := b }, .done ())
    | none => .done ()
  let setCaching : Act (Shared S) Unit :=
    match caching with
    | some b => .atomic fun s => ({ s with caching := b }, .done ())
    | none => .done ()
  setTag.bind fun _ => setFallback.bind fun _ => setCaching

/-- The language tag and the flags of a call, each read by itself, as in crates/localiser/src/localiser.rs:235-245 and
314-330. -/
def syncOptions {α : Type} (tag : Option Str) (fallback caching : Option Bool)
    (rest : Str → Bool → Bool → Act (Shared S) α) : Act (Shared S) α :=
  (Act.read fun s => tag.getD s.tag).bind fun tag =>
  (Act.read fun s => fallback.getD s.fallback).bind fun fallback =>
  (Act.read fun s => caching.getD s.caching).bind fun caching => rest tag fallback caching

/-- A call of a public function. -/
def syncCall (L : LocEnv D F P) (scriptOf : Str → S) : Request D F → Act (Shared S) (Option (LocM P (Str × Str)))
  | .format c i vs tag fallback caching =>
    syncOptions tag fallback caching fun t fb ca => (syncFormat L c i vs t fb ca).bind fun r => .done (some r)
  | .literal c i tag fallback caching =>
    syncOptions tag fallback caching fun t fb ca => (syncLiteral L c i t fb ca).bind fun r => .done (some r)
  | .data c i vs tag fallback caching =>
    syncOptions tag fallback caching fun t fb ca => (syncData L t fb ca c i vs).bind fun r => .done (some r)
  | .defaults tag fallback caching => (syncDefaults scriptOf tag fallback caching).bind fun _ => .done none

/-- A thread makes calls one after the other and keeps the answers; it ends when a call panics. -/
def syncThread (L : LocEnv D F P) (scriptOf : Str → S) :
    List (Request D F) → List (Option (LocM P (Str × Str))) → Act (Shared S) (List (Option (LocM P (Str × Str))))
  | [], answers => .done answers
  | r :: calls, answers => (syncCall L scriptOf r).bind fun
    | some .panic => .done (answers ++ [some .panic])
    | a => syncThread L scriptOf calls (answers ++ [a])

/-- A localiser as shared state. -/
def Localiser.share (l : Localiser S) : Shared S where
  cache := l.cache
  poisoned := false
  broken _ _ := false
  fallback := l.fallback
  caching := l.caching
  tag := l.tag
  script := l.script
  readers := 0

end Verif
