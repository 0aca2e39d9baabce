import Verif.Model.FormatterOrder
/-
When two formatters are the same, hash maps being compared by what they contain.
-/
namespace Verif.Spec
open Verif

/-- The list is some order of the entries of the hash map. -/
def IsOrder (order : MapOrder) : Prop := ∀ i m, (order i m).Perm m

/-- Two lists that are the same hash map: every key has the same value. -/
def SameMap (m m' : AMap Str Str) : Prop := ∀ k, m.get k = m'.get k

/-- The same hash maps, one by one. -/
inductive SameMaps : List (AMap Str Str) → List (AMap Str Str) → Prop
  | nil : SameMaps [] []
  | cons {m m' : AMap Str Str} {ms ms' : List (AMap Str Str)} : SameMap m m' → SameMaps ms ms' →
      SameMaps (m :: ms) (m' :: ms')

/-- The same formatter: only the order in which the maps of selectors are listed may be different. -/
structure SameFormatter (f f' : Formatter) : Prop where
  languageTag : f.languageTag = f'.languageTag
  icuLanguage : f.icuLanguage = f'.icuLanguage
  patterns : f.patterns = f'.patterns
  numbers : f.numbers = f'.numbers
  selectors : SameMaps f.selectors f'.selectors

/-- Two runs of the same code: both return related results, both return an error, or both panic. -/
def SameRun {ε α : Type} (r : α → α → Prop) : Outcome ε α → Outcome ε α → Prop
  | .ok a, .ok b => r a b
  | .err _, .err _ => True
  | .panic, .panic => True
  | _, _ => False

/-- The outcomes of formatting with several maps of values, one after the other. -/
def formatAll {D F : Type} (E : FmtEnv D F) (f : Formatter) : List (AMap Str (PValue D F)) → List (FmtM (Str × Str))
  | [] => []
  | values :: rest => (f.format E values).1 :: formatAll E (f.format E values).2 rest

end Verif.Spec
