import Verif.Spec.Provider
import Verif.Spec.Localiser
/-
The SQLite provider as a localiser sees it.
-/
namespace Verif.Spec
open Verif

variable {E : Type}

/-- The registry keeps the text of the tags of the rows up to case, and gives no characters that mean something in a
`LIKE` pattern. -/
def Faithful (canon : Str → Except E Str) (rows : List PatternRow) : Prop :=
  ∀ r ∈ rows, ∀ t, canon r.tag = .ok t → lower t = lower r.tag ∧ NoWildcards t

instance (tag : Str) : Decidable (NoWildcards tag) := inferInstanceAs (Decidable (_ ∧ _))

/-- What `LocalisationProviderTrait` of crates/provider/core/src/provider.rs gives a localiser when the provider is the
SQLite one. Requests that panic are told by the error `none`; so are requests for tags with wildcards, which no registry
gives. -/
def asProvider (canon : Str → Except E Str) (p : Sqlite) (st : Verif.Store) : Provider (Option (ProvErr E)) where
  string c i tag :=
    if NoWildcards tag then
      match p.string canon st c i tag with
      | .ok x => .ok x
      | .err e => .error (some e)
      | .panic => .error none
    else .error none
  default c :=
    match p.buildCache canon st with
    | .ok (details, _) =>
      match details.get c with
      | some d => .ok d.default
      | none => .error (some (.componentNotFound c))
    | .err e => .error (some e)
    | .panic => .error none

/-- The row is the one found for the string under the tag. -/
def FoundUnder (rows : Str → List PatternRow) (c i : Str) (names : List Str) (tag : Str) (r : PatternRow) : Prop :=
  ∃ rest, Decides rows c i false tag names (r :: rest)

/-- The row that is found under the tag that the registry gives for this row has the same string, and the registry gives the
same tag for it. -/
def FoundAgain (canon : Str → Except E Str) (rows : Str → List PatternRow) (c i : Str) (names : List Str) (r : PatternRow) : Prop :=
  ∀ t, canon r.tag = .ok t → ∃ r', FoundUnder rows c i names t r' ∧ Gives canon r' (r.string, t)

end Verif.Spec
