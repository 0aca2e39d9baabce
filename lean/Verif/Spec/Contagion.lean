import Verif.Model.LocaliserSync
import Verif.Spec.Crash
import Verif.Spec.Documented
import Verif.Spec.Transparent
/-
When the locks of the cache and of cached formatters can be poisoned.
-/
namespace Verif.Spec
open Verif

variable {D F P S : Type}

/-- A request can leave an entry with this key for the language: a string that is found under the language, whatever language
was asked for; or a pattern string that is formatted in the language, wherever it was found. -/
def CanEnter (L : LocEnv D F P) (language key : Str) : Prop :=
  ∃ c i tag fallback s t, key = cacheKey c i ∧ fetch L c i tag fallback = .ok (s, t) ∧
    (t = language ∨ tag = language ∧ s ≠ [] ∧ ∃ f, Formatter.tryNew L.fmt s t (L.icuLanguage t) = .ok f)

/-- A string is found under another language than the one asked for, and that one can have an entry for something else. -/
def Trap (L : LocEnv D F P) : Prop :=
  ∃ c i tag fallback s t key, fetch L c i tag fallback = .ok (s, t) ∧ t ≠ tag ∧ CanEnter L tag key ∧ key ≠ cacheKey c i

/-- A pattern string is accepted for this language and key, and with some values a command panics while the string is shown,
or showing it never ends. -/
def CanBreak (L : LocEnv D F P) (language key : Str) : Prop :=
  ∃ c i fallback s t lang d values, key = cacheKey c i ∧ fetch L c i language fallback = .ok (s, t) ∧
    L.icuLanguage t = some lang ∧ Reads L.fmt s d ∧ DocOk L.fmt d ∧
    (Crashes L.fmt lang values d.named.reverse mainName d.main ∨ Endless L.fmt lang values d.named.reverse mainName d.main)

/-- Another string can get an entry for the language. -/
def CanDrop (L : LocEnv D F P) (language key : Str) : Prop := ∃ other, other ≠ key ∧ CanEnter L language other

/-- Ways in which the request to format a pattern can panic: the lock of the cache can be poisoned, or that of the formatter; or
the string is found and reading it panics; or a formatter is made and put in the cache, and its entry can be dropped. -/
def FormatPanics (L : LocEnv D F P) (c i language : Str) (fallback caching : Bool) : Prop :=
  Trap L ∨ CanBreak L language (cacheKey c i) ∨ ∃ s t, fetch L c i language fallback = .ok (s, t) ∧ s ≠ [] ∧
    (Formatter.tryNew L.fmt s t (L.icuLanguage t) = .panic ∨
     caching = true ∧ CanDrop L language (cacheKey c i) ∧ ∃ f, Formatter.tryNew L.fmt s t (L.icuLanguage t) = .ok f)

/-- A formatter that threads can share for a language and a key: new, or after calls that did not panic. -/
def SharedFormatter (L : LocEnv D F P) (language key : Str) (f : Formatter) : Prop :=
  ∃ c i fallback s t new history, key = cacheKey c i ∧ fetch L c i language fallback = .ok (s, t) ∧ s ≠ [] ∧
    Formatter.tryNew L.fmt s t (L.icuLanguage t) = .ok new ∧ Quiet L.fmt new history ∧ f = after L.fmt new history

/-- The possible answers to a request for a string as it is: the one without caching; a string of the cache; the error about the
entry; a panic. -/
def LiteralAnswer (L : LocEnv D F P) (c i language : Str) (fallback : Bool) (x : LocM P (Str × Str)) : Prop :=
  Found L.provider c i language fallback x ∨
  (∃ s, HoldsString L language (cacheKey c i) s ∧ x = .ok (s, language)) ∨
  (x = .err (.cacheEntry c i) ∧ ∃ f, SharedFormatter L language (cacheKey c i) f) ∨
  x = .panic ∧ Trap L

/-- The possible answers to a request to format a pattern: the one without caching, `plain`; a string of the cache; the
answer of a formatter of the cache; the error that is said never to be reached, if the formatter is cached and then replaced by a
string; a panic. -/
def FormatAnswer (L : LocEnv D F P) (c i language : Str) (values : AMap Str (PValue D F)) (fallback caching : Bool)
    (plain x : LocM P (Str × Str)) : Prop :=
  x = plain ∨
  (∃ s, HoldsString L language (cacheKey c i) s ∧ x = .ok (s, language)) ∨
  (∃ f, SharedFormatter L language (cacheKey c i) f ∧ x = (f.format L.fmt values).1.mapErr .formatter) ∨
  (x = .err .neverReached ∧ caching = true ∧ (∃ s, HoldsString L language (cacheKey c i) s) ∧
    ∃ s t f, fetch L c i language fallback = .ok (s, t) ∧ s ≠ [] ∧ Formatter.tryNew L.fmt s t (L.icuLanguage t) = .ok f) ∨
  x = .panic ∧ FormatPanics L c i language fallback caching

end Verif.Spec
