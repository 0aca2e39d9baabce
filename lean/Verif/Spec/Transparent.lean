import Verif.Model.Localiser
import Verif.Spec.Documented
import Verif.Spec.Localiser
/-
What the cache of a localiser can hold, and when that changes answers.
-/
namespace Verif.Spec
open Verif

variable {D F P S : Type}

/-- Calls of one formatter, none of which panics. -/
def Quiet (E : FmtEnv D F) : Formatter → List (AMap Str (PValue D F)) → Prop
  | _, [] => True
  | f, v :: rest => (f.format E v).1 ≠ .panic ∧ Quiet E (f.format E v).2 rest

/-- A string that the cache can hold for a language: one with this key that is found under the language, whatever language was
asked for. -/
def HoldsString (L : LocEnv D F P) (language key s : Str) : Prop :=
  ∃ c i tag fallback, key = cacheKey c i ∧ fetch L c i tag fallback = .ok (s, language)

/-- A formatter that the cache can hold for a language: one made from a string with this key that was found, in whatever
language, when this language was asked for; and used at least once. -/
def HoldsFormatter (L : LocEnv D F P) (language key : Str) (f : Formatter) : Prop :=
  ∃ c i fallback s t new v history, key = cacheKey c i ∧ fetch L c i language fallback = .ok (s, t) ∧ s ≠ [] ∧
    Formatter.tryNew L.fmt s t (L.icuLanguage t) = .ok new ∧ Quiet L.fmt new (v :: history) ∧
    f = after L.fmt new (v :: history)

/-- The cache can hold this for a language. -/
def CanHold (L : LocEnv D F P) (language key : Str) : CacheData → Prop
  | .localised s t => t = language ∧ HoldsString L language key s
  | .formatter f => HoldsFormatter L language key f

/-- A string is found under another language than the one asked for, for which the cache can hold something else. -/
def Stranded (L : LocEnv D F P) (c i language : Str) (s t : Str) (fallback : Bool) : Prop :=
  fetch L c i language fallback = .ok (s, t) ∧ t ≠ language ∧ ∃ key e, key ≠ cacheKey c i ∧ CanHold L language key e

/-- The string is given as it is when it is formatted. -/
def NotAPattern (L : LocEnv D F P) (s t : Str) : Prop :=
  s = [] ∨ Formatter.tryNew L.fmt s t (L.icuLanguage t) = .err .noGrammar

/-- The answer to a request after some other requests, none of which panics, can be another than without caching. -/
def CanDiffer (L : LocEnv D F P) (scriptOf : Str → S) (l : Localiser S) (r : Request D F) : Prop :=
  ∃ calls, NoPanic L scriptOf l calls ∧
    ((l.after L scriptOf calls).call L scriptOf r).1 ≠ plainAnswer L scriptOf (l.after L scriptOf calls) r

/-- The request can panic after some other requests, none of which panics. -/
def CanPanic (L : LocEnv D F P) (scriptOf : Str → S) (l : Localiser S) (r : Request D F) : Prop :=
  ∃ calls, NoPanic L scriptOf l calls ∧ ((l.after L scriptOf calls).call L scriptOf r).1 = some .panic

/-- The request can fail with this error after some other requests, none of which panics. -/
def CanFail (L : LocEnv D F P) (scriptOf : Str → S) (l : Localiser S) (r : Request D F) (e : LocErr P) : Prop :=
  ∃ calls, NoPanic L scriptOf l calls ∧ ((l.after L scriptOf calls).call L scriptOf r).1 = some (.err e)

end Verif.Spec
