import Verif.Spec.Localiser
/-
Words for the property that what is cached is used again.
-/
namespace Verif.Spec
open Verif

variable {D F P S : Type}

/-- There is an entry for the string under the requested tag. -/
def Cached (cache : Cache) (u : Use) : Prop :=
  ∃ m e, AMap.get cache u.tag = some m ∧ AMap.get m (cacheKey u.component u.identifier) = some e

/-- The request is answered, with the same effect, whatever the provider would say. -/
def NeedsNoProvider (L : LocEnv D F P) (scriptOf : Str → S) (l : Localiser S) (r : Request D F) : Prop :=
  ∀ provider : Provider P, l.call { L with provider := provider } scriptOf r = l.call L scriptOf r

/-- The request is made with caching. -/
def WithCaching (caching : Bool) : Request D F → Prop
  | .format _ _ _ _ _ ca => ca.getD caching = true
  | .literal _ _ _ _ ca => ca.getD caching = true
  | .data _ _ _ _ _ ca => ca.getD caching = true
  | .defaults _ _ _ => False

/-- Some other string is found under the language when another language is asked for. -/
def Evicts (L : LocEnv D F P) (language key : Str) : Prop :=
  ∃ component identifier tag fallback s, Found L.provider component identifier tag fallback (.ok (s, language)) ∧
    tag ≠ language ∧ cacheKey component identifier ≠ key

/-- After the request and some others, none of which panics, the same request can need the provider again. -/
def CanForget (L : LocEnv D F P) (scriptOf : Str → S) (l : Localiser S) (r : Request D F) : Prop :=
  ∃ calls, NoPanic L scriptOf l (r :: calls) ∧ ¬ NeedsNoProvider L scriptOf (l.after L scriptOf (r :: calls)) r

end Verif.Spec
